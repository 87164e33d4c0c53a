import Verif.Proofs.Prove

set_option linter.unusedSimpArgs false
set_option linter.unusedVariables false

namespace Verif
open Merkle Spec
variable {G : Type}

section Chain
variable {mode : Mode} {W : Pow} {lv : PoPowHeader G → Nat} {c : List (PoPowHeader G)}

theorem Spec.FullChain.index (hc : FullChain mode W lv c) {p : PoPowHeader G} (hp : p ∈ c) :
    ∃ i : Nat, c[i]? = some p ∧ p.header.height.toNat = i + 1 := by
  obtain ⟨i, hi⟩ := List.mem_iff_getElem?.1 hp
  exact ⟨i, hi, hc.heights i p hi⟩

theorem Spec.FullChain.inj (hc : FullChain mode W lv c) {p q : PoPowHeader G} (hp : p ∈ c) (hq : q ∈ c)
    (h : p.header.height.toNat = q.header.height.toNat) : p = q := by
  obtain ⟨i, h1, h2⟩ := hc.index hp
  obtain ⟨j, h3, h4⟩ := hc.index hq
  have : i = j := by omega
  subst this
  rw [h1] at h3
  exact Option.some.inj h3

theorem Spec.FullChain.lv_lt (hc : FullChain mode W lv c) {p : PoPowHeader G} (hp : p ∈ c) : lv p < 2 ^ 31 := by
  obtain ⟨l, _, h⟩ := hc.levels p hp
  have := BitVec.toInt_eq_toNat_cond l
  have := l.isLt
  split at * <;> omega

theorem Spec.FullChain.first_level (hc : FullChain mode W lv c) {g : PoPowHeader G} (hg : c[0]? = some g) : lv g = 2 ^ 31 - 1 := by
  obtain ⟨l, h1, h2⟩ := hc.levels g (List.mem_of_getElem? hg)
  have hh : g.header.height = 1 := by
    apply BitVec.eq_of_toNat_eq
    rw [hc.heights 0 g hg]
    rfl
  unfold Pow.maxLevel at h1
  rw [if_pos hh] at h1
  obtain rfl : _ = l := by injection h1
  have : (0x7FFFFFFF : BitVec 32).toInt = 2147483647 := by decide
  rw [this] at h2
  omega

theorem Spec.FullChain.height_ne (hc : FullChain mode W lv c) {i : Nat} (hi : 1 ≤ i) {p : PoPowHeader G} (hp : c[i]? = some p) :
    p.header.height ≠ 1 := by
  intro h
  have := hc.heights i p hp
  rw [h] at this
  have h1 : (1 : BitVec 32).toNat = 1 := by decide
  omega

/-- The interlink vector of the block at index `i ≥ 1`. -/
theorem Spec.FullChain.interlinks (hc : FullChain mode W lv c) {g : PoPowHeader G} (hg : c[0]? = some g) : ∀ (i : Nat), 1 ≤ i →
    ∀ q, c[i]? = some q → q.interlinks[0]? = some g.header.id ∧ q.interlinks.length ≤ 2 ^ 31 ∧
      ∀ (j : Nat) a ℓ, 1 ≤ j → j < i → 1 ≤ ℓ → c[j]? = some a → ℓ ≤ lv a →
        (∀ x b, j < x → x < i → c[x]? = some b → lv b < ℓ) → ℓ < q.interlinks.length ∧ slot q.interlinks ℓ = some a.header.id := by
  intro i
  induction i with
  | zero => intro h; omega
  | succ i ih =>
    intro _ q hq
    have hlt := (List.getElem?_eq_some_iff.1 hq).1
    obtain ⟨p, hp⟩ : ∃ p, c[i]? = some p := ⟨_, List.getElem?_eq_getElem (by omega)⟩
    have hl := hc.links i p q hp hq
    by_cases hi : i = 0
    · subst hi
      have hpg : p = g := Option.some.inj (hp.symm.trans hg)
      subst hpg
      have hh : p.header.height = 1 := by
        apply BitVec.eq_of_toNat_eq
        rw [hc.heights 0 p hp]; rfl
      unfold updateInterlinks at hl
      rw [if_pos hh] at hl
      have he : q.interlinks = [p.header.id] := by injection hl with e; exact e.symm
      rw [he]
      exact ⟨rfl, by simp, fun j a ℓ h1 h2 => by omega⟩
    · obtain ⟨ih1, ih2, ih3⟩ := ih (by omega) p hp
      have hne : p.interlinks ≠ [] := by
        intro e; rw [e] at ih1; simp at ih1
      obtain ⟨l, h1, h2⟩ := hc.levels p (List.mem_of_getElem? hp)
      obtain ⟨r, e1, e2, e3, e4⟩ := update_spec W p.header p.interlinks (hc.height_ne (by omega) hp) hne l h1 (lv p) h2
      rw [hl] at e1
      obtain rfl : q.interlinks = r := by injection e1
      have hplt := hc.lv_lt (List.mem_of_getElem? hp)
      refine ⟨e2.trans ih1, by rw [e3]; omega, ?_⟩
      intro j a ℓ hj1 hj2 hℓ ha hla hbet
      by_cases hji : j = i
      · subst hji
        rw [hp] at ha
        cases ha
        refine ⟨by rw [e3]; omega, ?_⟩
        rw [e4 ℓ hℓ (by rw [e3]; omega), if_pos hla]
      · have hpl : lv p < ℓ := hbet i p (by omega) (by omega) hp
        obtain ⟨f1, f2⟩ := ih3 j a ℓ hj1 (by omega) hℓ ha hla (fun x b hx1 hx2 hb => hbet x b hx1 (by omega) hb)
        refine ⟨by rw [e3]; omega, ?_⟩
        rw [e4 ℓ hℓ (by rw [e3]; omega), if_neg (by omega)]
        exact f2

end Chain

/-! ## Sorting by height -/

theorem chain_of_gaps {α : Type} (h : α → Nat) (R : α → α → Prop) : ∀ l : List α, l.Pairwise (fun a b => h a < h b) →
    (∀ a ∈ l, ∀ b ∈ l, h a < h b → (∀ x ∈ l, ¬ (h a < h x ∧ h x < h b)) → R a b) → l.IsChain R := by
  intro l
  induction l with
  | nil => intro _ _; simp
  | cons a l ih =>
    intro hp hr
    obtain ⟨h1, h2⟩ := List.pairwise_cons.1 hp
    have ht : l.IsChain R := by
      refine ih h2 (fun x hx y hy hxy hgap => hr x (by simp [hx]) y (by simp [hy]) hxy ?_)
      intro z hz
      rcases List.mem_cons.1 hz with rfl | hz
      · have := h1 x hx; omega
      · exact hgap z hz
    cases l with
    | nil => simp
    | cons b l =>
      rw [List.isChain_cons_cons]
      refine ⟨hr a (by simp) b (by simp) (h1 b (by simp)) ?_, ht⟩
      intro z hz
      rcases List.mem_cons.1 hz with rfl | hz
      · omega
      · rcases List.mem_cons.1 hz with rfl | hz
        · omega
        · have := (List.pairwise_cons.1 h2).1 z hz; omega

theorem sorted_heights (l : List (PoPowHeader G)) (hn : l.Nodup)
    (hi : ∀ p ∈ l, ∀ q ∈ l, p.header.height.toNat = q.header.height.toNat → p = q) :
    (l.mergeSort heightLe).Pairwise fun a b => a.header.height.toNat < b.header.height.toNat := by
  have h1 : (l.mergeSort heightLe).Pairwise fun a b => heightLe a b = true := by
    apply List.pairwise_mergeSort
    · intro a b c h1 h2
      simp only [heightLe, decide_eq_true_eq] at *; omega
    · intro a b
      simp only [heightLe, Bool.or_eq_true, decide_eq_true_eq]; omega
  have h2 : (l.mergeSort heightLe).Nodup := (List.mergeSort_perm l heightLe).nodup_iff.2 hn
  have h3 := h1.and h2
  refine List.Pairwise.imp_of_mem ?_ h3
  rintro a b ha hb ⟨h4, h5⟩
  simp only [heightLe, decide_eq_true_eq] at h4
  rcases Nat.lt_or_ge a.header.height.toNat b.header.height.toNat with h | h
  · exact h
  · exact absurd (hi a (List.mem_mergeSort.1 ha) b (List.mem_mergeSort.1 hb) (by omega)) h5

/-! ## The proof built from a full chain -/

section Main
variable [DecidableEq G] {mode : Mode} {W : Pow} {lv : PoPowHeader G → Nat} {c : List (PoPowHeader G)}

/-- Facts about the anchors of the rounds over the first `L` blocks. -/
structure Rounds (lv : PoPowHeader G → Nat) (m n : Nat) (F : List (PoPowHeader G)) (g : PoPowHeader G) (anc : Nat → PoPowHeader G)
    (P : List (PoPowHeader G)) : Prop where
  pos : 0 < n
  top : anc (n - 1) = g
  step : ∀ ℓ, ℓ + 1 < n → anc ℓ = nextAnchor lv m F (ℓ + 1) (anc (ℓ + 1))
  mem : ∀ x, x ∈ P ↔ ∃ ℓ < n, x ∈ subOf lv ℓ (anc ℓ).header.height.toNat F

omit [DecidableEq G] in
theorem nextAnchor_cases (lv : PoPowHeader G → Nat) (m : Nat) (F : List (PoPowHeader G)) (ℓ : Nat) (a : PoPowHeader G) :
    nextAnchor lv m F ℓ a = a ∨ nextAnchor lv m F ℓ a ∈ subOf lv ℓ a.header.height.toNat F := by
  unfold nextAnchor
  dsimp only
  split
  · next h =>
    cases hg : (subOf lv ℓ a.header.height.toNat F)[(subOf lv ℓ a.header.height.toNat F).length - m]? with
    | none => exact .inl rfl
    | some x => exact .inr (List.mem_of_getElem? hg)
  · exact .inl rfl

omit [DecidableEq G] in
theorem mem_subOf {lv : PoPowHeader G → Nat} {ℓ h : Nat} {F : List (PoPowHeader G)} {x : PoPowHeader G} :
    x ∈ subOf lv ℓ h F ↔ x ∈ F ∧ ℓ ≤ lv x ∧ h ≤ x.header.height.toNat := by
  unfold subOf; rw [List.mem_filter]; simp

omit [DecidableEq G] in
/-- Neighbours in the proof are linked. -/
theorem linked_gap (hc : FullChain mode W lv c) {g : PoPowHeader G} (hg : c[0]? = some g) {L m n : Nat} (hL : L < c.length)
    {anc : Nat → PoPowHeader G} {P : List (PoPowHeader G)} (hr : Rounds lv m n (c.take L) g anc P)
    {a b : PoPowHeader G} (ha : a ∈ P) (ib : Nat) (hib : ib ≤ L) (hb : c[ib]? = some b)
    (hab : a.header.height.toNat < b.header.height.toNat)
    (hgap : ∀ x ∈ P, ¬ (a.header.height.toNat < x.header.height.toNat ∧ x.header.height.toNat < b.header.height.toNat)) :
    Linked a b := by
  have hin : ∀ (i : Nat) x, i < L → c[i]? = some x → x ∈ c.take L := by
    intro i x hi hx
    exact List.mem_of_getElem? (i := i) (by rw [List.getElem?_take_of_lt hi]; exact hx)
  obtain ⟨ℓ', hℓ', hsub⟩ := (hr.mem a).1 ha
  rw [mem_subOf] at hsub
  obtain ⟨haF, hal, hah⟩ := hsub
  obtain ⟨ia, hia, hha⟩ := hc.index (List.mem_of_mem_take haF)
  have hhb := hc.heights ib b hb
  -- the lowest level whose anchor is not above `a`
  have hex : ∃ ℓ, ℓ < n ∧ (anc ℓ).header.height.toNat ≤ a.header.height.toNat := ⟨ℓ', hℓ', hah⟩
  obtain ⟨ℓ, ⟨hℓn, hℓa⟩, hmin⟩ : ∃ ℓ, (ℓ < n ∧ (anc ℓ).header.height.toNat ≤ a.header.height.toNat) ∧
      ∀ k < ℓ, ¬ (k < n ∧ (anc k).header.height.toNat ≤ a.header.height.toNat) := by
    classical
    exact ⟨Nat.find hex, Nat.find_spec hex, fun k hk => Nat.find_min hex hk⟩
  have hℓle : ℓ ≤ ℓ' := by
    by_contra h
    exact hmin ℓ' (by omega) ⟨hℓ', hah⟩
  have between : ∀ x (i : Nat), i < L → c[i]? = some x → ia < i → i < ib → ℓ ≤ lv x → False := by
    intro x i hiL hx h1 h2 hlx
    have hhx := hc.heights i x hx
    refine hgap x ?_ ⟨by omega, by omega⟩
    exact (hr.mem x).2 ⟨ℓ, hℓn, mem_subOf.2 ⟨hin i x hiL hx, hlx, by omega⟩⟩
  cases ℓ with
  | zero =>
    have hnext : ib = ia + 1 := by
      by_contra hne
      obtain ⟨x, hx⟩ : ∃ x, c[ia + 1]? = some x := ⟨_, List.getElem?_eq_getElem (by omega)⟩
      exact between x (ia + 1) (by omega) hx (by omega) (by omega) (Nat.zero_le _)
    subst hnext
    exact .inr (hc.parents ia a b hia hb)
  | succ k =>
    have hk : a.header.height.toNat < (anc k).header.height.toNat := by
      have := hmin k (by omega)
      have hkn : k < n := by omega
      simp only [not_and] at this
      have := this hkn
      omega
    have hstep := hr.step k (by omega)
    rcases nextAnchor_cases lv m (c.take L) (k + 1) (anc (k + 1)) with he | hm
    · rw [hstep, he] at hk; omega
    · rw [← hstep] at hm
      have hkP : anc k ∈ P := (hr.mem _).2 ⟨k + 1, hℓn, hm⟩
      rw [mem_subOf] at hm
      obtain ⟨ik, hik, hhk⟩ := hc.index (List.mem_of_mem_take hm.1)
      have hikL : ik < L := by
        obtain ⟨j, hj⟩ := List.mem_iff_getElem?.1 hm.1
        have hjL : j < L := by
          have := (List.getElem?_eq_some_iff.1 hj).1
          simp at this; omega
        rw [List.getElem?_take_of_lt hjL] at hj
        have := hc.heights j _ hj
        omega
      have hbk : b.header.height.toNat ≤ (anc k).header.height.toNat := by
        by_contra h
        exact hgap _ hkP ⟨hk, by omega⟩
      left
      obtain ⟨h0, _, hslot⟩ := hc.interlinks hg ib (by omega) b hb
      by_cases hia0 : ia = 0
      · subst hia0
        rw [hg] at hia
        cases hia
        exact List.mem_of_getElem? h0
      · obtain ⟨_, h2⟩ := hslot ia a (k + 1) (by omega) (by omega) (by omega) hia (by omega)
          (fun x y h1 h2 h3 => by
            by_contra h
            exact between y x (by omega) h3 h1 h2 (by omega))
        exact List.mem_of_getElem? h2

end Main

end Verif
