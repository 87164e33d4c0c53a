import Verif.Spec.TimerHeap

set_option linter.unusedSimpArgs false
set_option linter.unusedVariables false

namespace Verif
namespace TimerHeap
open Spec.TimerHeap

variable {T : Type}

/-! ## Links between items and slab -/

/-- Item `i` carries slot `s` exactly if the slab sends `s` to `i`. -/
def Link (items : List (T × Nat)) (index : List SlabSlot) : Prop :=
  ∀ i s : Nat, (∃ t, items[i]? = some (t, s)) ↔ index[s]? = some (SlabSlot.full i)

theorem setIndex_ok {slab : List SlabSlot} {s v : Nat} (w : Nat) (h : slab[s]? = some (.full v)) :
    setIndex slab s w = .ok (slab.set s (.full w)) := by
  simp [setIndex, h]

theorem lt_of_get {α : Type} {l : List α} {i : Nat} {a : α} (h : l[i]? = some a) : i < l.length := by
  rcases Nat.lt_or_ge i l.length with h' | h'
  · exact h'
  · rw [List.getElem?_eq_none h'] at h; cases h

/-- The empty entries of two slabs are the same. -/
def SameEmpty (a b : List SlabSlot) : Prop := a.length = b.length ∧ ∀ s n : Nat, a[s]? = some (SlabSlot.empty n) ↔ b[s]? = some (SlabSlot.empty n)

/-- `k'` is `k` with the values at `i` and `j` exchanged. -/
def Swapped {α : Type} (k k' : Nat → Option α) (i j : Nat) (a b : α) : Prop :=
  ∀ n, k' n = if n = i then some b else if n = j then some a else k n

theorem swapped_list {α : Type} {l : List α} {i j : Nat} {a b : α} (hij : i ≠ j) (hi : l[i]? = some a) (hj : l[j]? = some b) :
    Swapped (fun n => l[n]?) (fun n => ((l.set i b).set j a)[n]?) i j a b := by
  intro n
  have h1 := lt_of_get hi
  have h2 := lt_of_get hj
  simp only [List.getElem?_set, List.length_set]
  by_cases hnj : j = n
  · subst hnj
    have : ¬ (j = i) := fun e => hij e.symm
    simp [this, h2]
  · by_cases hni : i = n
    · subst hni
      simp [hnj, h1]
    · have e1 : ¬ n = i := fun e => hni e.symm
      have e2 : ¬ n = j := fun e => hnj e.symm
      simp [hnj, hni, e1, e2]

theorem swap_spec {h : Heap T} {i j : Nat} {a b : T × Nat} (hl : Link h.items h.index) (hij : i ≠ j)
    (hi : h.items[i]? = some a) (hj : h.items[j]? = some b) :
    ∃ ix, h.swap i j = .ok ⟨(h.items.set i b).set j a, ix, h.next⟩ ∧ Link ((h.items.set i b).set j a) ix ∧
      SameEmpty ix h.index := by
  have la := (hl i a.2).1 ⟨a.1, hi⟩
  have lb := (hl j b.2).1 ⟨b.1, hj⟩
  have hab : a.2 ≠ b.2 := by
    intro e
    rw [e, lb] at la
    simp at la
    exact hij la.symm
  have ha' : (h.index.set b.2 (.full i))[a.2]? = some (.full i) := by
    rw [List.getElem?_set_ne (fun e => hab e.symm)]; exact la
  refine ⟨(h.index.set b.2 (.full i)).set a.2 (.full j), ?_, ?_, ?_⟩
  · simp [Heap.swap, hi, hj, setIndex_ok i lb, setIndex_ok j ha']
  · intro n s
    have hsw := swapped_list hij hi hj n
    dsimp only at hsw
    rw [hsw]
    have lta := lt_of_get la
    have ltb := lt_of_get lb
    simp only [List.getElem?_set, List.length_set]
    by_cases hsa : a.2 = s
    · subst hsa
      simp only [lta, if_true]
      constructor
      · rintro ⟨t, ht⟩
        by_cases hn : n = i
        · simp only [hn, if_true, Option.some.injEq] at ht
          exact absurd (by rw [ht]) (fun e : b.2 = a.2 => hab e.symm)
        · by_cases hn' : n = j
          · rw [hn']
          · simp only [hn, hn', if_false] at ht
            have := (hl n a.2).1 ⟨t, ht⟩
            rw [la] at this
            simp at this
            exact absurd this.symm hn
      · intro e
        simp at e
        subst e
        refine ⟨a.1, ?_⟩
        rw [if_neg (fun e => hij e.symm), if_pos rfl]
    · by_cases hsb : b.2 = s
      · subst hsb
        simp only [hsa, ltb, if_true, if_false]
        constructor
        · rintro ⟨t, ht⟩
          by_cases hn : n = i
          · rw [hn]
          · by_cases hn' : n = j
            · simp only [hn, hn', if_true, if_false, Option.some.injEq] at ht
              split at ht
              · rename_i e; exact absurd e.symm hij
              · injection ht with ht; exact absurd (by rw [ht]) hab
            · simp only [hn, hn', if_false] at ht
              have := (hl n b.2).1 ⟨t, ht⟩
              rw [lb] at this
              simp at this
              exact absurd this.symm hn'
        · intro e
          simp at e
          subst e
          exact ⟨b.1, by simp⟩
      · simp only [hsa, hsb, if_false]
        rw [← hl n s]
        constructor
        · rintro ⟨t, ht⟩
          by_cases hn : n = i
          · simp only [hn, if_true, Option.some.injEq] at ht
            exact absurd (by rw [ht]) hsb
          · by_cases hn' : n = j
            · simp only [hn', if_true] at ht
              split at ht
              · rename_i e; exact absurd e.symm hij
              · injection ht with ht; exact absurd (by rw [ht]) hsa
            · simp only [hn, hn', if_false] at ht
              exact ⟨t, ht⟩
        · rintro ⟨t, ht⟩
          have hn : n ≠ i := by
            rintro rfl
            rw [hi] at ht; injection ht with ht; exact hsa (by rw [ht])
          have hn' : n ≠ j := by
            rintro rfl
            rw [hj] at ht; injection ht with ht; exact hsb (by rw [ht])
          exact ⟨t, by simp [hn, hn', ht]⟩
  · refine ⟨by simp, fun s n => ?_⟩
    simp only [List.getElem?_set, List.length_set]
    by_cases hsa : a.2 = s
    · subst hsa
      rw [if_pos rfl, if_pos (lt_of_get la), la]; simp
    · by_cases hsb : b.2 = s
      · subst hsb
        rw [if_neg hsa, if_pos rfl, if_pos (lt_of_get lb), lb]; simp
      · simp [hsa, hsb]

/-! ## Order of the items -/

variable {le : T → T → Bool}

/-- The edge above `i` is in order. -/
def Edge (le : T → T → Bool) (k : Nat → Option (T × Nat)) (i : Nat) : Prop :=
  ∀ p x, k ((i - 1) / 2) = some p → k i = some x → le p.1 x.1 = true

/-- All edges are in order. -/
def Ordered (le : T → T → Bool) (k : Nat → Option (T × Nat)) : Prop := ∀ i, 0 < i → Edge le k i

/-- The children of `idx` are in order with the parent of `idx`. -/
def Skip (le : T → T → Bool) (k : Nat → Option (T × Nat)) (idx : Nat) : Prop :=
  0 < idx → ∀ c p x, 0 < c → (c - 1) / 2 = idx → k ((idx - 1) / 2) = some p → k c = some x → le p.1 x.1 = true

/-- In order except above `idx`. -/
def UpInv (le : T → T → Bool) (k : Nat → Option (T × Nat)) (idx : Nat) : Prop :=
  (∀ i, 0 < i → i ≠ idx → Edge le k i) ∧ Skip le k idx

/-- In order except below `idx`. -/
def DownInv (le : T → T → Bool) (k : Nat → Option (T × Nat)) (idx : Nat) : Prop :=
  (∀ i, 0 < i → (i - 1) / 2 ≠ idx → Edge le k i) ∧ Skip le k idx

theorem up_done {k : Nat → Option (T × Nat)} {idx : Nat} (h : UpInv le k idx) (he : 0 < idx → Edge le k idx) : Ordered le k := by
  intro i hi
  by_cases e : i = idx
  · subst e; exact he hi
  · exact h.1 i hi e

theorem up_step (L : TotalPre le) {k k' : Nat → Option (T × Nat)} {idx : Nat} {p x : T × Nat} (h0 : 0 < idx) (h : UpInv le k idx)
    (hp : k ((idx - 1) / 2) = some p) (hx : k idx = some x) (hlt : le p.1 x.1 = false)
    (hs : Swapped k k' ((idx - 1) / 2) idx p x) : UpInv le k' ((idx - 1) / 2) := by
  have hxp : le x.1 p.1 = true := (L.total x.1 p.1).resolve_right (by simp [hlt])
  have hne : (idx - 1) / 2 ≠ idx := by omega
  have kp : k' ((idx - 1) / 2) = some x := by rw [hs]; simp
  have kx : k' idx = some p := by rw [hs]; simp [hne, Ne.symm hne]
  have ko : ∀ n, n ≠ (idx - 1) / 2 → n ≠ idx → k' n = k n := fun n a b => by rw [hs]; simp [a, b]
  constructor
  · intro i hi hne' q y hq hy
    by_cases e : i = idx
    · subst e
      rw [kp] at hq; rw [kx] at hy
      cases hq; cases hy
      exact hxp
    · rw [ko i hne' e] at hy
      by_cases e1 : (i - 1) / 2 = (idx - 1) / 2
      · rw [e1, kp] at hq
        cases hq
        have := h.1 i hi e p y (by rw [e1]; exact hp) hy
        exact L.trans _ _ _ hxp this
      · by_cases e2 : (i - 1) / 2 = idx
        · rw [e2, kx] at hq
          cases hq
          exact h.2 h0 i p y hi e2 hp hy
        · rw [ko _ e1 e2] at hq
          exact h.1 i hi e q y hq hy
  · intro hpos c q y hc hce hq hy
    have hg1 : ((idx - 1) / 2 - 1) / 2 ≠ (idx - 1) / 2 := by omega
    have hg2 : ((idx - 1) / 2 - 1) / 2 ≠ idx := by omega
    rw [ko _ hg1 hg2] at hq
    have hqp := h.1 _ hpos hne q p hq hp
    by_cases e : c = idx
    · subst e
      rw [kx] at hy; cases hy
      exact hqp
    · have hc2 : c ≠ (idx - 1) / 2 := by omega
      rw [ko c hc2 e] at hy
      exact L.trans _ _ _ hqp (h.1 c hc e p y (by rw [hce]; exact hp) hy)

theorem down_step (L : TotalPre le) {k k' : Nat → Option (T × Nat)} {idx c : Nat} {x y : T × Nat} (h : DownInv le k idx)
    (hc0 : 0 < c) (hc : (c - 1) / 2 = idx) (hx : k idx = some x) (hy : k c = some y) (hlt : le y.1 x.1 = true)
    (hmin : ∀ d z, 0 < d → (d - 1) / 2 = idx → k d = some z → le y.1 z.1 = true)
    (hs : Swapped k k' idx c x y) : DownInv le k' c := by
  have hne : idx ≠ c := by omega
  have ki : k' idx = some y := by rw [hs]; simp
  have kc : k' c = some x := by rw [hs]; simp [hne, Ne.symm hne]
  have ko : ∀ n, n ≠ idx → n ≠ c → k' n = k n := fun n a b => by rw [hs]; simp [a, b]
  constructor
  · intro i hi hne' q z hq hz
    by_cases e : i = c
    · subst e
      rw [hc, ki] at hq; rw [kc] at hz
      cases hq; cases hz
      exact hlt
    · by_cases e1 : i = idx
      · subst e1
        rw [ki] at hz; cases hz
        have h1 : (i - 1) / 2 ≠ i := by omega
        rw [ko _ h1 hne'] at hq
        exact h.2 hi c q y hc0 hc hq hy
      · rw [ko i e1 e] at hz
        by_cases e2 : (i - 1) / 2 = idx
        · rw [e2, ki] at hq; cases hq
          exact hmin i z hi e2 hz
        · rw [ko _ e2 hne'] at hq
          exact h.1 i hi e2 q z hq hz
  · intro _ d q z hd hde hq hz
    rw [hc, ki] at hq; cases hq
    have h1 : d ≠ idx := by omega
    have h2 : d ≠ c := by omega
    rw [ko d h1 h2] at hz
    refine h.1 d hd (by omega) y z (by rw [hde]; exact hy) hz

theorem down_done {k : Nat → Option (T × Nat)} {idx : Nat} (h : DownInv le k idx)
    (he : ∀ d, 0 < d → (d - 1) / 2 = idx → Edge le k d) : Ordered le k := by
  intro i hi
  by_cases e : (i - 1) / 2 = idx
  · exact he i hi e
  · exact h.1 i hi e

theorem root_least (L : TotalPre le) {l : List (T × Nat)} (h : Ordered le fun n => l[n]?) {r : T × Nat} (hr : l[0]? = some r) :
    ∀ (i : Nat) (x : T × Nat), l[i]? = some x → le r.1 x.1 = true := by
  intro i
  induction i using Nat.strongRecOn with
  | _ i ih =>
    intro x hx
    rcases Nat.eq_zero_or_pos i with e | e
    · subst e
      rw [hr] at hx; cases hx
      exact (L.total r.1 r.1).elim id id
    · have hlt : (i - 1) / 2 < l.length := Nat.lt_of_le_of_lt (by omega) (lt_of_get hx)
      have hp : l[(i - 1) / 2]? = some l[(i - 1) / 2] := List.getElem?_eq_getElem hlt
      exact L.trans _ _ _ (ih _ (by omega) _ hp) (h i e _ _ hp hx)

/-! ## Percolation -/

/-- `h'` holds the same elements under the same slots as `h`, linked and with the same free slots. -/
structure Shuffled (h h' : Heap T) : Prop where
  link : Link h'.items h'.index
  same : SameEmpty h'.index h.index
  next : h'.next = h.next
  len : h'.items.length = h.items.length
  mem : ∀ x, x ∈ h'.items ↔ x ∈ h.items

theorem Shuffled.refl {h : Heap T} (hl : Link h.items h.index) : Shuffled h h :=
  ⟨hl, ⟨rfl, fun _ _ => Iff.rfl⟩, rfl, rfl, fun _ => Iff.rfl⟩

theorem Shuffled.trans {a b c : Heap T} (h1 : Shuffled a b) (h2 : Shuffled b c) : Shuffled a c :=
  ⟨h2.link, ⟨h2.same.1.trans h1.same.1, fun s n => (h2.same.2 s n).trans (h1.same.2 s n)⟩, h2.next.trans h1.next,
    h2.len.trans h1.len, fun x => (h2.mem x).trans (h1.mem x)⟩

theorem swap_shuffled {h : Heap T} {i j : Nat} {a b : T × Nat} (hl : Link h.items h.index) (hij : i ≠ j)
    (hi : h.items[i]? = some a) (hj : h.items[j]? = some b) :
    ∃ h', h.swap i j = .ok h' ∧ Shuffled h h' ∧ Swapped (fun n => h.items[n]?) (fun n => h'.items[n]?) i j a b := by
  obtain ⟨ix, he, hl', hs⟩ := swap_spec hl hij hi hj
  refine ⟨_, he, ⟨hl', hs, rfl, by simp, ?_⟩, swapped_list hij hi hj⟩
  intro x
  have hsw := swapped_list hij hi hj
  simp only [List.mem_iff_getElem?]
  constructor
  · rintro ⟨n, hn⟩
    have := hsw n
    dsimp only at this
    rw [this] at hn
    by_cases e : n = i
    · simp [e] at hn; subst hn; exact ⟨j, hj⟩
    · by_cases e' : n = j
      · simp only [e', if_true] at hn
        split at hn
        · rename_i e2; exact absurd e2.symm hij
        · cases hn; exact ⟨i, hi⟩
      · simp [e, e'] at hn; exact ⟨n, hn⟩
  · rintro ⟨n, hn⟩
    by_cases e : n = i
    · subst e
      rw [hi] at hn; cases hn
      exact ⟨j, by have := hsw j; dsimp only at this; rw [this, if_neg (fun e => hij e.symm), if_pos rfl]⟩
    · by_cases e' : n = j
      · subst e'
        rw [hj] at hn; cases hn
        exact ⟨i, by have := hsw i; dsimp only at this; rw [this]; simp⟩
      · exact ⟨n, by have := hsw n; dsimp only at this; rw [this]; simp [e, e', hn]⟩

theorem upLoop_spec (L : TotalPre le) : ∀ (fuel idx : Nat) (h : Heap T), idx < fuel → Link h.items h.index → idx < h.items.length →
    UpInv le (fun n => h.items[n]?) idx →
    ∃ h', Heap.upLoop le fuel h idx = .ok h' ∧ Shuffled h h' ∧ Ordered le fun n => h'.items[n]? := by
  intro fuel
  induction fuel with
  | zero => intro idx h hf; omega
  | succ fuel ih =>
    intro idx h hf hl hlt hu
    rw [Heap.upLoop]
    by_cases h0 : 0 < idx
    · have hp0 : (idx - 1) / 2 < h.items.length := by omega
      have hx : h.items[idx]? = some h.items[idx] := List.getElem?_eq_getElem hlt
      have hp : h.items[(idx - 1) / 2]? = some h.items[(idx - 1) / 2] := List.getElem?_eq_getElem hp0
      rw [if_pos h0, hx, hp]
      dsimp only
      by_cases hc : le h.items[(idx - 1) / 2].1 h.items[idx].1 = true
      · rw [if_pos hc]
        refine ⟨h, rfl, Shuffled.refl hl, up_done hu fun _ p x hp' hx' => ?_⟩
        rw [hp] at hp'; rw [hx] at hx'
        cases hp'; cases hx'
        exact hc
      · rw [if_neg hc]
        obtain ⟨h1, he, hsh, hsw⟩ := swap_shuffled hl (by omega : (idx - 1) / 2 ≠ idx) hp hx
        rw [he]
        dsimp only
        have hu' := up_step L h0 hu hp hx (by simpa using hc) hsw
        obtain ⟨h2, he2, hsh2, ho⟩ := ih _ h1 (by omega) hsh.link (by rw [hsh.len]; exact hp0) hu'
        exact ⟨h2, he2, hsh.trans hsh2, ho⟩
    · rw [if_neg h0]
      exact ⟨h, rfl, Shuffled.refl hl, up_done hu fun e => absurd e h0⟩

theorem percolateUp_spec (L : TotalPre le) (idx : Nat) (h : Heap T) (hl : Link h.items h.index) (hlt : idx < h.items.length)
    (hu : UpInv le (fun n => h.items[n]?) idx) :
    ∃ h', h.percolateUp le idx = .ok h' ∧ Shuffled h h' ∧ Ordered le fun n => h'.items[n]? :=
  upLoop_spec L (idx + 1) idx h (Nat.lt_succ_self _) hl hlt hu

theorem pickChild_spec (L : TotalPre le) {k : List (T × Nat)} {idx : Nat} {x : T × Nat} (hx : k[idx]? = some x) :
    (pickChild le (k[2 * idx + 1]?.map Prod.fst) (k[2 * idx + 2]?.map Prod.fst) x.1 (2 * idx + 1) (2 * idx + 2) = .ok none ∧
      ∀ d, 0 < d → (d - 1) / 2 = idx → Edge le (fun n => k[n]?) d) ∨
    ∃ c y, pickChild le (k[2 * idx + 1]?.map Prod.fst) (k[2 * idx + 2]?.map Prod.fst) x.1 (2 * idx + 1) (2 * idx + 2) =
        .ok (some c) ∧ 0 < c ∧ (c - 1) / 2 = idx ∧ k[c]? = some y ∧ le y.1 x.1 = true ∧
      ∀ d z, 0 < d → (d - 1) / 2 = idx → k[d]? = some z → le y.1 z.1 = true := by
  have two : ∀ d, 0 < d → (d - 1) / 2 = idx → d = 2 * idx + 1 ∨ d = 2 * idx + 2 := by intro d h1 h2; omega
  have rf : ∀ a, le a a = true := fun a => (L.total a a).elim id id
  have flip : ∀ a b, le a b = false → le b a = true := fun a b h => (L.total b a).resolve_right (by simp [h])
  rcases ha : k[2 * idx + 1]? with _ | a
  · rcases hb : k[2 * idx + 2]? with _ | b
    · refine Or.inl ⟨by simp [pickChild], fun d h1 h2 p y _ hy => ?_⟩
      rcases two d h1 h2 with e | e
      · rw [e] at hy; dsimp only at hy; rw [ha] at hy; cases hy
      · rw [e] at hy; dsimp only at hy; rw [hb] at hy; cases hy
    · exfalso
      have := lt_of_get hb
      rw [List.getElem?_eq_none_iff] at ha
      omega
  · rcases hb : k[2 * idx + 2]? with _ | b
    · by_cases hc : le x.1 a.1 = true
      · refine Or.inl ⟨by simp [pickChild, hc], fun d h1 h2 p y hp hy => ?_⟩
        rw [h2] at hp; dsimp only at hp hy; rw [hx] at hp; cases hp
        rcases two d h1 h2 with e | e
        · rw [e, ha] at hy; cases hy; exact hc
        · rw [e, hb] at hy; cases hy
      · simp only [Bool.not_eq_true] at hc
        refine Or.inr ⟨2 * idx + 1, a, by simp [pickChild, hc], by omega, by omega, ha, flip _ _ hc, fun d z h1 h2 hz => ?_⟩
        rcases two d h1 h2 with e | e
        · rw [e, ha] at hz; cases hz; exact rf _
        · rw [e, hb] at hz; cases hz
    · by_cases hc : le x.1 a.1 = true
      · by_cases hd : le x.1 b.1 = true
        · refine Or.inl ⟨by simp [pickChild, hc, hd], fun d h1 h2 p y hp hy => ?_⟩
          rw [h2] at hp; dsimp only at hp hy; rw [hx] at hp; cases hp
          rcases two d h1 h2 with e | e
          · rw [e, ha] at hy; cases hy; exact hc
          · rw [e, hb] at hy; cases hy; exact hd
        · simp only [Bool.not_eq_true] at hd
          refine Or.inr ⟨2 * idx + 2, b, by simp [pickChild, hc, hd], by omega, by omega, hb, flip _ _ hd, fun d z h1 h2 hz => ?_⟩
          rcases two d h1 h2 with e | e
          · rw [e, ha] at hz; cases hz; exact L.trans _ _ _ (flip _ _ hd) hc
          · rw [e, hb] at hz; cases hz; exact rf _
      · simp only [Bool.not_eq_true] at hc
        by_cases hd : le a.1 b.1 = true
        · refine Or.inr ⟨2 * idx + 1, a, by simp [pickChild, hc, hd], by omega, by omega, ha, flip _ _ hc, fun d z h1 h2 hz => ?_⟩
          rcases two d h1 h2 with e | e
          · rw [e, ha] at hz; cases hz; exact rf _
          · rw [e, hb] at hz; cases hz; exact hd
        · simp only [Bool.not_eq_true] at hd
          refine Or.inr ⟨2 * idx + 2, b, by simp [pickChild, hc, hd], by omega, by omega, hb,
            L.trans _ _ _ (flip _ _ hd) (flip _ _ hc), fun d z h1 h2 hz => ?_⟩
          rcases two d h1 h2 with e | e
          · rw [e, ha] at hz; cases hz; exact flip _ _ hd
          · rw [e, hb] at hz; cases hz; exact rf _

theorem percolateDown_spec (L : TotalPre le) : ∀ (fuel : Nat) (h : Heap T) (idx : Nat), Link h.items h.index →
    idx < h.items.length → h.items.length ≤ idx + fuel → DownInv le (fun n => h.items[n]?) idx →
    ∃ h', Heap.percolateDown le fuel h idx = .ok h' ∧ Shuffled h h' ∧ Ordered le fun n => h'.items[n]? := by
  intro fuel
  induction fuel with
  | zero => intro h idx _ h1 h2; omega
  | succ fuel ih =>
    intro h idx hl hlt hf hd
    have hx : h.items[idx]? = some h.items[idx] := List.getElem?_eq_getElem hlt
    rw [Heap.percolateDown, hx]
    dsimp only
    rcases pickChild_spec L hx with ⟨he, hdone⟩ | ⟨c, y, he, hc0, hc, hy, hle, hmin⟩
    · rw [he]
      exact ⟨h, rfl, Shuffled.refl hl, down_done hd hdone⟩
    · rw [he]
      dsimp only
      obtain ⟨h1, he1, hsh, hsw⟩ := swap_shuffled hl (by omega : idx ≠ c) hx hy
      rw [he1]
      dsimp only
      have hcl := lt_of_get hy
      obtain ⟨h2, he2, hsh2, ho⟩ := ih h1 c hsh.link (by rw [hsh.len]; exact hcl) (by rw [hsh.len]; omega)
        (down_step L hd hc0 hc hx hy hle hmin hsw)
      exact ⟨h2, he2, hsh.trans hsh2, ho⟩

/-! ## Free slots -/

/-- Following the free list from `n` gives the slots `l` and ends at the length of the slab. -/
def Chain (ix : List SlabSlot) : Nat → List Nat → Prop
  | n, [] => n = ix.length
  | n, s :: l => n = s ∧ ∃ m, ix[s]? = some (.empty m) ∧ Chain ix m l

/-- The free list lists every empty entry once. -/
def FreeOk (ix : List SlabSlot) (next : Nat) : Prop :=
  ∃ l, Chain ix next l ∧ l.Nodup ∧ ∀ s n, ix[s]? = some (.empty n) → s ∈ l

theorem chain_mem {ix : List SlabSlot} : ∀ {l : List Nat} {n s : Nat}, Chain ix n l → s ∈ l → ∃ m, ix[s]? = some (.empty m)
  | [], _, _, _, hs => by cases hs
  | a :: l, n, s, h, hs => by
    rcases List.mem_cons.1 hs with e | e
    · subst e; exact ⟨_, h.2.choose_spec.1⟩
    · exact chain_mem h.2.choose_spec.2 e

theorem chain_congr {ix ix' : List SlabSlot} (hlen : ix'.length = ix.length) : ∀ {l : List Nat} {n : Nat},
    (∀ s m, s ∈ l → ix[s]? = some (.empty m) → ix'[s]? = some (.empty m)) → Chain ix n l → Chain ix' n l
  | [], n, _, h => by simp only [Chain] at h ⊢; rw [hlen]; exact h
  | a :: l, n, hc, ⟨e, m, hm, h⟩ =>
    ⟨e, m, hc a m (by simp) hm, chain_congr hlen (fun s m hs => hc s m (List.mem_cons_of_mem _ hs)) h⟩

theorem freeOk_same {ix ix' : List SlabSlot} {n : Nat} (hs : SameEmpty ix' ix) (h : FreeOk ix n) : FreeOk ix' n := by
  obtain ⟨l, hc, hn, ha⟩ := h
  exact ⟨l, chain_congr hs.1 (fun s m _ hm => (hs.2 s m).2 hm) hc, hn, fun s m hm => ha s m ((hs.2 s m).1 hm)⟩

/-! ## The invariant -/

/-- What always holds of a heap. -/
structure Inv (le : T → T → Bool) (h : Heap T) : Prop where
  link : Link h.items h.index
  order : Ordered le fun n => h.items[n]?
  free : FreeOk h.index h.next

theorem inv_new : Inv le (Heap.new : Heap T) :=
  ⟨by intro i s; simp [Heap.new], by intro i _ p x _ hx; simp [Heap.new] at hx,
    ⟨[], by simp [Chain, Heap.new], by simp, by simp [Heap.new]⟩⟩

theorem contents_iff {h : Heap T} (hl : Link h.items h.index) (s : Nat) (t : T) : contents h s = some t ↔ (t, s) ∈ h.items := by
  rw [List.mem_iff_getElem?]
  constructor
  · intro e
    unfold contents at e
    split at e
    · rename_i i hi
      obtain ⟨t', ht⟩ := (hl i s).2 hi
      rw [ht] at e
      simp at e
      subst e
      exact ⟨i, ht⟩
    · cases e
  · rintro ⟨i, hi⟩
    have := (hl i s).1 ⟨t, hi⟩
    unfold contents
    rw [this]
    simp [hi]

theorem contents_none {h : Heap T} (hl : Link h.items h.index) (s : Nat) :
    contents h s = none ↔ ∀ i, h.index[s]? ≠ some (.full i) := by
  constructor
  · intro e i hi
    obtain ⟨t, ht⟩ := (hl i s).2 hi
    have := (contents_iff hl s t).2 (List.mem_of_getElem? ht)
    rw [e] at this; cases this
  · intro hne
    unfold contents
    split
    · rename_i i hi; exact absurd hi (hne i)
    · rfl

theorem contents_ext {m : Store T} {h : Heap T} (hl : Link h.items h.index) (hm : ∀ s t, m s = some t ↔ (t, s) ∈ h.items) :
    contents h = m := by
  funext s
  apply Option.ext
  intro t
  rw [contents_iff hl, hm]

/-! ## Push -/

theorem push_aux (L : TotalPre le) {h : Heap T} (hi : Inv le h) (t : T) (s n : Nat) (ix : List SlabSlot)
    (hs : ∀ i, h.index[s]? ≠ some (.full i)) (hix : ∀ u, ix[u]? = if u = s then some (.full h.items.length) else h.index[u]?)
    (hf : FreeOk ix n) :
    ∃ h', Heap.percolateUp le ⟨h.items ++ [(t, s)], ix, n⟩ h.items.length = .ok h' ∧ Inv le h' ∧
      contents h' = fun k => if k = s then some t else contents h k := by
  have hl : Link (h.items ++ [(t, s)]) ix := by
    intro i u
    rw [hix u]
    by_cases e : u = s
    · subst e
      simp only [if_true, Option.some.injEq, SlabSlot.full.injEq]
      constructor
      · rintro ⟨t', ht⟩
        rw [List.getElem?_append] at ht
        split at ht
        · exact absurd ((hi.link i u).1 ⟨t', ht⟩) (hs i)
        · have := lt_of_get ht
          simp at this
          omega
      · rintro rfl
        exact ⟨t, by simp⟩
    · simp only [e, if_false]
      rw [← hi.link i u]
      constructor
      · rintro ⟨t', ht⟩
        rw [List.getElem?_append] at ht
        split at ht
        · exact ⟨t', ht⟩
        · have := lt_of_get ht
          simp at this
          rw [this] at ht
          simp at ht
          exact absurd ht.2.symm e
      · rintro ⟨t', ht⟩
        exact ⟨t', by rw [List.getElem?_append_left (lt_of_get ht)]; exact ht⟩
  have hu : UpInv le (fun n => (h.items ++ [(t, s)])[n]?) h.items.length := by
    constructor
    · intro i hi0 hne p x hp hx
      dsimp only at hp hx
      have hlt : i < h.items.length := by
        have := lt_of_get hx
        simp at this
        omega
      rw [List.getElem?_append_left (by omega)] at hp
      rw [List.getElem?_append_left hlt] at hx
      exact hi.order i hi0 p x hp hx
    · intro h0 c p x hc hce _ hx
      have := lt_of_get hx
      simp at this
      omega
  obtain ⟨h', he, hsh, ho⟩ := percolateUp_spec L h.items.length ⟨h.items ++ [(t, s)], ix, n⟩ hl (by simp) hu
  refine ⟨h', he, ⟨hsh.link, ho, ?_⟩, ?_⟩
  · rw [hsh.next]
    exact freeOk_same hsh.same hf
  · apply contents_ext hsh.link
    intro u x
    rw [hsh.mem]
    simp only [List.mem_append, List.mem_singleton, Prod.mk.injEq]
    rw [← contents_iff hi.link]
    by_cases e : u = s
    · subst e
      have := (contents_none hi.link u).2 hs
      simp [this, eq_comm]
    · simp [e]

theorem push_spec (L : TotalPre le) {h : Heap T} (hi : Inv le h) (t : T) :
    ∃ s h', h.push le t = .ok (s, h') ∧ Inv le h' ∧ contents h s = none ∧
      contents h' = fun k => if k = s then some t else contents h k := by
  obtain ⟨l, hc, hn, ha⟩ := hi.free
  unfold Heap.push
  by_cases e : h.next = h.index.length
  · rw [if_pos e]
    have hl0 : l = [] := by
      cases l with
      | nil => rfl
      | cons s l =>
        obtain ⟨e1, m, hm, _⟩ := hc
        have := lt_of_get hm
        omega
    subst hl0
    have hs : ∀ i, h.index[h.index.length]? ≠ some (.full i) := by intro i; simp
    obtain ⟨h', he, hinv, hco⟩ := push_aux L hi t h.index.length (h.next + 1) (h.index ++ [.full h.items.length]) hs
      (by
        intro u
        rw [List.getElem?_append]
        by_cases hu : u < h.index.length
        · simp [hu, Nat.ne_of_lt hu]
        · by_cases hu' : u = h.index.length
          · subst hu'; simp
          · simp only [hu, hu', if_false]
            rw [List.getElem?_eq_none (by simp; omega), List.getElem?_eq_none (by omega)])
      ⟨[], by simp [Chain, e], by simp, by
        intro s n hsn
        rw [List.getElem?_append] at hsn
        split at hsn
        · exact absurd (ha s n hsn) (by simp)
        · have := lt_of_get hsn
          simp at this
          rw [this] at hsn
          simp at hsn⟩
    refine ⟨h.index.length, h', ?_, hinv, (contents_none hi.link _).2 hs, hco⟩
    rw [he]
    rfl
  · rw [if_neg e]
    cases l with
    | nil => exact absurd hc e
    | cons s l =>
      obtain ⟨e1, m, hm, hc'⟩ := hc
      subst e1
      rw [hm]
      dsimp only
      have hs : ∀ i, h.index[h.next]? ≠ some (.full i) := by intro i; rw [hm]; simp
      rw [List.nodup_cons] at hn
      obtain ⟨h', he, hinv, hco⟩ := push_aux L hi t h.next m (h.index.set h.next (.full h.items.length)) hs
        (by
          intro u
          rw [List.getElem?_set]
          by_cases hu : h.next = u
          · subst hu; simp [lt_of_get hm]
          · simp [hu, Ne.symm hu])
        ⟨l, chain_congr (by simp) (by
            intro s m' hsl hsm
            rw [List.getElem?_set_ne]
            · exact hsm
            · rintro rfl; exact hn.1 hsl) hc', hn.2, by
          intro s n hsn
          rw [List.getElem?_set] at hsn
          split at hsn
          · split at hsn <;> cases hsn
          · rename_i hne
            exact (List.mem_cons.1 (ha s n hsn)).resolve_left (fun e => hne e.symm)⟩
      refine ⟨h.next, h', ?_, hinv, (contents_none hi.link _).2 hs, hco⟩
      rw [he]
      rfl

/-! ## Remove -/

theorem swapRemove_spec {α : Type} {l : List α} {i : Nat} {a : α} (hi : l[i]? = some a) :
    ∃ l', swapRemove l i = some (a, l') ∧ l'.length + 1 = l.length ∧
      ∀ n, l'[n]? = if n < l.length - 1 then (if n = i then l[l.length - 1]? else l[n]?) else none := by
  have hlt := lt_of_get hi
  have hz : l[l.length - 1]? = some l[l.length - 1] := List.getElem?_eq_getElem (by omega)
  refine ⟨_, by unfold swapRemove; rw [hi, hz], by simp; omega, ?_⟩
  intro n
  rw [List.dropLast_eq_take, List.getElem?_take]
  simp only [List.length_set]
  by_cases hn : n < l.length - 1
  · simp only [hn, if_true]
    rw [List.getElem?_set]
    by_cases e : n = i
    · subst e; simp [hlt, hz]
    · rw [if_neg (fun e' => e e'.symm), if_neg e]
  · simp [hn]

theorem freeOk_remove {ix ix' : List SlabSlot} {s n i : Nat} (hf : FreeOk ix n) (hs : ix[s]? = some (.full i))
    (hix : ∀ u m, ix'[u]? = some (.empty m) ↔ (u = s ∧ m = n) ∨ (u ≠ s ∧ ix[u]? = some (.empty m)))
    (hlen : ix'.length = ix.length) : FreeOk ix' s := by
  obtain ⟨l, hc, hn, ha⟩ := hf
  have hsl : s ∉ l := by
    intro e
    obtain ⟨m, hm⟩ := chain_mem hc e
    rw [hs] at hm; cases hm
  refine ⟨s :: l, ⟨rfl, n, (hix s n).2 (Or.inl ⟨rfl, rfl⟩), chain_congr hlen ?_ hc⟩, List.nodup_cons.2 ⟨hsl, hn⟩, ?_⟩
  · intro u m hu hm
    exact (hix u m).2 (Or.inr ⟨fun e => hsl (e ▸ hu), hm⟩)
  · intro u m hu
    rcases (hix u m).1 hu with ⟨e, _⟩ | ⟨_, e⟩
    · exact e ▸ List.mem_cons_self
    · exact List.mem_cons_of_mem _ (ha u m e)

theorem remove_spec (L : TotalPre le) {h : Heap T} (hi : Inv le h) {s : Nat} {t : T} (hs : contents h s = some t) :
    ∃ h', h.remove le s = .ok (t, h') ∧ Inv le h' ∧ (contents h' = fun k => if k = s then none else contents h k) ∧
      h'.items.length + 1 = h.items.length := by
  obtain ⟨i, hit⟩ := List.mem_iff_getElem?.1 ((contents_iff hi.link s t).1 hs)
  have hix := (hi.link i s).1 ⟨t, hit⟩
  obtain ⟨items, hsr, hlen, hget⟩ := swapRemove_spec hit
  have hlt := lt_of_get hit
  have hslt := lt_of_get hix
  -- the slot of an item is not `s` unless it is the item removed
  have huniq : ∀ j x, h.items[j]? = some (x, s) → j = i := by
    intro j x hj
    have := (hi.link j s).1 ⟨x, hj⟩
    rw [hix] at this
    simp at this
    exact this.symm
  have hmem : ∀ u x, (if u = s then none else contents h u) = some x ↔ (x, u) ∈ items := by
    intro u x
    rw [List.mem_iff_getElem?]
    constructor
    · intro e
      by_cases hus : u = s
      · simp [hus] at e
      · simp only [hus, if_false] at e
        obtain ⟨j, hj⟩ := List.mem_iff_getElem?.1 ((contents_iff hi.link u x).1 e)
        have hji : j ≠ i := by
          rintro rfl
          rw [hit] at hj; injection hj with hj; injection hj with _ hj; exact hus hj.symm
        have hjl := lt_of_get hj
        by_cases hjz : j = h.items.length - 1
        · exact ⟨i, by rw [hget, if_pos (by omega), if_pos rfl, ← hjz]; exact hj⟩
        · exact ⟨j, by rw [hget, if_pos (by omega), if_neg hji]; exact hj⟩
    · rintro ⟨j, hj⟩
      rw [hget] at hj
      split at hj
      · rename_i hjl
        split at hj
        · rename_i e
          have hus : u ≠ s := by
            rintro rfl
            have := huniq _ _ hj
            omega
          simp only [hus, if_false]
          exact (contents_iff hi.link u x).2 (List.mem_of_getElem? hj)
        · rename_i e
          have hus : u ≠ s := by
            rintro rfl
            exact e (huniq _ _ hj)
          simp only [hus, if_false]
          exact (contents_iff hi.link u x).2 (List.mem_of_getElem? hj)
      · cases hj
  unfold Heap.remove
  rw [hix]
  dsimp only
  rw [hsr]
  dsimp only
  simp only [ne_eq, not_true_eq_false, if_false]
  by_cases hil : i = h.items.length - 1
  · -- the last item is removed
    have hnone : items[i]? = none := by rw [hget, if_neg (by omega)]
    rw [hnone]
    dsimp only
    have hlink : Link items (h.index.set s (.empty h.next)) := by
      intro j u
      rw [List.getElem?_set, hget]
      by_cases hus : s = u
      · subst hus
        simp only [hslt, if_true]
        constructor
        · rintro ⟨x, hx⟩
          split at hx
          · split at hx
            · omega
            · rename_i h1 h2; exact absurd (huniq _ _ hx) h2
          · cases hx
        · intro e; simp at e
      · simp only [hus, if_false]
        rw [← hi.link j u]
        constructor
        · rintro ⟨x, hx⟩
          split at hx
          · split at hx
            · omega
            · exact ⟨x, hx⟩
          · cases hx
        · rintro ⟨x, hx⟩
          have hjl := lt_of_get hx
          have hji : j ≠ i := by
            rintro rfl
            rw [hit] at hx; injection hx with hx; injection hx with _ hx; exact hus hx
          exact ⟨x, by rw [if_pos (by omega), if_neg hji]; exact hx⟩
    refine ⟨_, rfl, ⟨hlink, ?_, ?_⟩, contents_ext hlink hmem, hlen⟩
    · intro j hj p x hp hx
      dsimp only at hp hx
      rw [hget] at hp hx
      split at hx
      · rename_i h1
        rw [if_pos (by omega), if_neg (by omega)] at hp
        rw [if_neg (by omega)] at hx
        exact hi.order j hj p x hp hx
      · cases hx
    · refine freeOk_remove hi.free hix ?_ (by simp)
      intro u m
      dsimp only
      rw [List.getElem?_set]
      by_cases hus : s = u
      · subst hus; simp [hslt, eq_comm]
      · simp [hus, Ne.symm hus]
  · -- the last item takes the place
    have hil' : i < h.items.length - 1 := by omega
    have hz : h.items[h.items.length - 1]? = some h.items[h.items.length - 1] := List.getElem?_eq_getElem (by omega)
    generalize hzz : h.items[h.items.length - 1] = z at hz
    have hsome : items[i]? = some z := by rw [hget, if_pos hil', if_pos rfl]; exact hz
    rw [hsome]
    dsimp only
    have hzs : z.2 ≠ s := by
      intro e
      have := huniq _ z.1 (by rw [hz, ← e])
      omega
    have hzi := (hi.link _ z.2).1 ⟨z.1, hz⟩
    have hzi' : (h.index.set s (.empty h.next))[z.2]? = some (.full (h.items.length - 1)) := by
      rw [List.getElem?_set_ne (fun e => hzs e.symm)]; exact hzi
    rw [setIndex_ok i hzi']
    simp only [Outcome.bind_ok]
    have hlink : Link items ((h.index.set s (.empty h.next)).set z.2 (.full i)) := by
      intro j u
      rw [List.getElem?_set, List.getElem?_set, List.length_set, hget]
      by_cases huz : z.2 = u
      · subst huz
        simp only [lt_of_get hzi, if_true, Option.some.injEq, SlabSlot.full.injEq]
        constructor
        · rintro ⟨x, hx⟩
          split at hx
          · split at hx
            · rename_i e; exact e.symm
            · have := (hi.link j z.2).1 ⟨x, hx⟩
              rw [hzi] at this
              simp at this
              omega
          · cases hx
        · rintro rfl
          exact ⟨z.1, by rw [if_pos hil', if_pos rfl]; exact hz⟩
      · simp only [huz, if_false]
        by_cases hus : s = u
        · subst hus
          simp only [hslt, if_true]
          constructor
          · rintro ⟨x, hx⟩
            split at hx
            · split at hx
              · have := huniq _ _ hx; omega
              · rename_i h1 h2; exact absurd (huniq _ _ hx) h2
            · cases hx
          · intro e; simp at e
        · simp only [hus, if_false]
          rw [← hi.link j u]
          constructor
          · rintro ⟨x, hx⟩
            split at hx
            · split at hx
              · rw [hz] at hx; injection hx with hx; exact absurd (by rw [hx]) huz
              · exact ⟨x, hx⟩
            · cases hx
          · rintro ⟨x, hx⟩
            have hjl := lt_of_get hx
            have hji : j ≠ i := by
              rintro rfl
              rw [hit] at hx; injection hx with hx; injection hx with _ hx; exact hus hx
            have hjz : j ≠ h.items.length - 1 := by
              rintro rfl
              rw [hz] at hx; injection hx with hx; exact huz (by rw [hx])
            exact ⟨x, by rw [if_pos (by omega), if_neg hji]; exact hx⟩
    have hfree : FreeOk ((h.index.set s (.empty h.next)).set z.2 (.full i)) s := by
      refine freeOk_remove hi.free hix ?_ (by simp)
      intro u m
      rw [List.getElem?_set, List.getElem?_set, List.length_set]
      by_cases huz : z.2 = u
      · subst huz; rw [if_pos rfl, if_pos (lt_of_get hzi), hzi]; simp [hzs]
      · by_cases hus : s = u
        · subst hus; simp [hslt, huz, eq_comm]
        · simp [hus, huz, Ne.symm hus]
    have hilen : i < items.length := by omega
    have key : ∃ h', Heap.settle le ⟨items, (h.index.set s (.empty h.next)).set z.2 (.full i), s⟩ i (!le t z.1) = .ok h' ∧
        Shuffled ⟨items, (h.index.set s (.empty h.next)).set z.2 (.full i), s⟩ h' ∧ Ordered le fun n => h'.items[n]? := by
      -- what the old order says about the neighbours of `i`
      have hup : 0 < i → ∀ p, items[(i - 1) / 2]? = some p → le p.1 t = true := by
        intro h0 p hp
        rw [hget, if_pos (by omega), if_neg (by omega)] at hp
        exact hi.order i h0 p (t, s) hp hit
      have hdn : ∀ c x, 0 < c → (c - 1) / 2 = i → items[c]? = some x → le t x.1 = true := by
        intro c x h0 hce hx
        rw [hget] at hx
        split at hx
        · rw [if_neg (by omega)] at hx
          exact hi.order c h0 (t, s) x (by rw [hce]; exact hit) hx
        · cases hx
      have hoth : ∀ j, 0 < j → j ≠ i → (j - 1) / 2 ≠ i → Edge le (fun n => items[n]?) j := by
        intro j hj h1 h2 p x hp hx
        dsimp only at hp hx
        rw [hget] at hp hx
        split at hx
        · rw [if_pos (by omega), if_neg h2] at hp
          exact hi.order j hj p x hp hx
        · cases hx
      have hskip : Skip le (fun n => items[n]?) i := by
        intro h0 c p x hc hce hp hx
        exact L.trans _ _ _ (hup h0 p hp) (hdn c x hc hce hx)
      unfold Heap.settle
      by_cases hc : le t z.1 = true
      · rw [if_neg (by simp [hc])]
        refine percolateDown_spec L _ _ _ hlink hilen (by dsimp only; omega) ⟨?_, hskip⟩
        intro j hj h2
        by_cases h1 : j = i
        · subst h1
          intro p x hp hx
          dsimp only at hp hx
          rw [hsome] at hx; cases hx
          exact L.trans _ _ _ (hup hj p hp) hc
        · exact hoth j hj h1 h2
      · have hc' : le t z.1 = false := by simpa using hc
        rw [if_pos (by simp [hc'])]
        refine percolateUp_spec L _ _ hlink hilen ⟨?_, hskip⟩
        intro j hj h1
        by_cases h2 : (j - 1) / 2 = i
        · intro p x hp hx
          dsimp only at hp hx
          rw [h2, hsome] at hp; cases hp
          exact L.trans _ _ _ ((L.total z.1 t).resolve_right hc) (hdn j x hj h2 hx)
        · exact hoth j hj h1 h2
    obtain ⟨h', he, hsh, ho⟩ := key
    rw [he]
    refine ⟨h', rfl, ⟨hsh.link, ho, ?_⟩, ?_, by rw [hsh.len]; exact hlen⟩
    · rw [hsh.next]; exact freeOk_same hsh.same hfree
    · apply contents_ext hsh.link
      intro u x
      rw [hsh.mem]
      exact hmem u x

theorem remove_panic {h : Heap T} (hl : Link h.items h.index) {s : Nat} (hs : contents h s = none) : h.remove le s = .panic := by
  have := (contents_none hl s).1 hs
  unfold Heap.remove
  split
  · rename_i i hi; exact absurd hi (this i)
  · rfl
  · rfl

/-! ## Peek and pop -/

theorem least_root (L : TotalPre le) {h : Heap T} (hi : Inv le h) {x : T × Nat} (hx : h.items[0]? = some x) :
    Least le (contents h) x.2 x.1 := by
  refine ⟨(contents_iff hi.link _ _).2 (List.mem_of_getElem? hx), fun s' t' h' => ?_⟩
  obtain ⟨j, hj⟩ := List.mem_iff_getElem?.1 ((contents_iff hi.link s' t').1 h')
  exact root_least L hi.order hx j _ hj

theorem contents_empty {h : Heap T} (hl : Link h.items h.index) (h0 : h.items[0]? = none) : ∀ s, contents h s = none := by
  intro s
  have : h.items = [] := by
    cases hh : h.items with
    | nil => rfl
    | cons a l => rw [hh] at h0; simp at h0
  rcases he : contents h s with _ | t
  · rfl
  · have := (contents_iff hl s t).1 he
    simp_all

theorem call_spec (L : TotalPre le) {h : Heap T} (hi : Inv le h) (o : Op T)
    (ho : ∀ s, o = .remove s → contents h s ≠ none) :
    ∃ r h', call le h o = .ok (r, h') ∧ Inv le h' ∧ Step le (contents h) o r (contents h') := by
  cases o with
  | push t =>
    obtain ⟨s, h', he, hinv, hn, hc⟩ := push_spec L hi t
    refine ⟨.slot s, h', by simp [call, he], hinv, ?_⟩
    rw [hc]
    exact .push _ _ _ hn
  | peek =>
    refine ⟨_, h, rfl, hi, ?_⟩
    unfold Heap.peek
    rcases hx : h.items[0]? with _ | x
    · exact .peekNone _ (contents_empty hi.link hx)
    · exact .peek _ x.2 x.1 (least_root L hi hx)
  | pop =>
    rcases hx : h.items[0]? with _ | x
    · exact ⟨_, h, by simp [call, Heap.pop, hx], hi, .popNone _ (contents_empty hi.link hx)⟩
    · have hl := least_root L hi hx
      obtain ⟨h', he, hinv, hc, _⟩ := remove_spec L hi hl.1
      refine ⟨.head (some x.1), h', by simp [call, Heap.pop, hx, he], hinv, ?_⟩
      rw [hc]
      exact .pop _ _ _ hl
  | remove s =>
    rcases ht : contents h s with _ | t
    · exact absurd ht (ho s rfl)
    · obtain ⟨h', he, hinv, hc, _⟩ := remove_spec L hi ht
      refine ⟨.elem t, h', by simp [call, he], hinv, ?_⟩
      rw [hc]
      exact .remove _ _ _ ht

theorem pop_spec (L : TotalPre le) {h : Heap T} (hi : Inv le h) :
    (h.peek = none ∧ h.pop le = .ok (none, h) ∧ ∀ s, contents h s = none) ∨
    ∃ s t h', h.peek = some t ∧ h.pop le = .ok (some t, h') ∧ Inv le h' ∧ Least le (contents h) s t ∧
      (contents h' = fun k => if k = s then none else contents h k) ∧ h'.items.length + 1 = h.items.length := by
  rcases hx : h.items[0]? with _ | x
  · exact Or.inl ⟨by simp [Heap.peek, hx], by simp [Heap.pop, hx], contents_empty hi.link hx⟩
  · have hl := least_root L hi hx
    obtain ⟨h', he, hinv, hc, hlen⟩ := remove_spec L hi hl.1
    exact Or.inr ⟨x.2, x.1, h', by simp [Heap.peek, hx], by simp [Heap.pop, hx, he], hinv, hl, hc, hlen⟩

theorem calls_append (le : T → T → Bool) : ∀ (a b : List (Op T)) (h : Heap T),
    calls le h (a ++ b) = (do
      let (rs, h') ← calls le h a
      let (rs', h'') ← calls le h' b
      .ok (rs ++ rs', h''))
  | [], b, h => by
    simp only [List.nil_append, calls, Outcome.bind_ok]
    cases calls le h b <;> simp
  | o :: a, b, h => by
    simp only [List.cons_append, calls]
    rcases call le h o with ⟨r, h'⟩ | _ | _
    · simp only [Outcome.bind_ok]
      rw [calls_append le a b h']
      rcases calls le h' a with ⟨rs, h''⟩ | _ | _
      · simp only [Outcome.bind_ok]
        rcases calls le h'' b with ⟨rs', h3⟩ | _ | _ <;> simp
      · simp
      · simp
    · simp
    · simp

theorem calls_spec (L : TotalPre le) : ∀ (ops : List (Op T)) (h : Heap T), Inv le h →
    (∃ rs h', calls le h ops = .ok (rs, h') ∧ Inv le h' ∧ Steps le (contents h) rs (contents h') ∧ rs.map Prod.fst = ops) ∨
    (calls le h ops = .panic ∧ ∃ pre s post rs h', ops = pre ++ .remove s :: post ∧ calls le h pre = .ok (rs, h') ∧
      contents h' s = none)
  | [], h, hi => Or.inl ⟨[], h, rfl, hi, .nil _, rfl⟩
  | o :: ops, h, hi => by
    by_cases ho : ∀ s, o = .remove s → contents h s ≠ none
    · obtain ⟨r, h1, he, hi1, hs⟩ := call_spec L hi o ho
      rcases calls_spec L ops h1 hi1 with ⟨rs, h2, he2, hi2, hs2, hm⟩ | ⟨he2, pre, s, post, rs, h2, e1, e2, e3⟩
      · exact Or.inl ⟨(o, r) :: rs, h2, by simp [calls, he, he2], hi2, .cons hs hs2, by simp [hm]⟩
      · exact Or.inr ⟨by simp [calls, he, he2], o :: pre, s, post, (o, r) :: rs, h2, by simp [e1], by simp [calls, he, e2], e3⟩
    · simp only [Classical.not_forall, Classical.not_not] at ho
      obtain ⟨s, rfl, hn⟩ := ho
      refine Or.inr ⟨?_, [], s, ops, [], h, rfl, rfl, hn⟩
      simp [calls, call, remove_panic hi.link hn]

end TimerHeap
end Verif
