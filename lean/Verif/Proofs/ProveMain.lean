import Verif.Proofs.ProveValid

set_option linter.unusedSimpArgs false
set_option linter.unusedVariables false

namespace Verif
open Merkle Spec
variable {G : Type} [DecidableEq G] {mode : Mode} {W : Pow} {lv : PoPowHeader G → Nat} {c : List (PoPowHeader G)}

/-- How `prove` runs on a full chain. -/
theorem prove_run (hc : FullChain mode W lv c) (k m : BitVec 32) (hk : 1 ≤ k.toNat) (hm : 1 ≤ m.toNat)
    (hs : k.toNat + m.toNat < 2 ^ 32) (hlen : k.toNat + m.toNat ≤ c.length) (h2 : k.toNat + 2 ≤ c.length) :
    ∃ (g sh last : PoPowHeader G) (st P : List (PoPowHeader G)) (anc : Nat → PoPowHeader G),
      c[0]? = some g ∧ c[c.length - k.toNat - 1]? = some last ∧ c.drop (c.length - k.toNat) = sh :: st ∧
      P.Nodup ∧ Rounds lv m.toNat last.interlinks.length (c.take (c.length - k.toNat)) g anc P ∧
      prove mode W c k m = .ok { m := m, k := k, pre := P.mergeSort heightLe, suffixHead := sh, suffixTail := st.map PoPowHeader.header } := by
  obtain ⟨g, hg⟩ : ∃ g, c[0]? = some g := ⟨_, List.getElem?_eq_getElem (by omega)⟩
  obtain ⟨last, hlast⟩ : ∃ p, c[c.length - k.toNat - 1]? = some p := ⟨_, List.getElem?_eq_getElem (by omega)⟩
  obtain ⟨sh, hsh⟩ : ∃ p, c[c.length - k.toNat]? = some p := ⟨_, List.getElem?_eq_getElem (by omega)⟩
  have hdrop : c.drop (c.length - k.toNat) = sh :: c.drop (c.length - k.toNat + 1) := by
    rw [List.drop_eq_getElem_cons (by omega), (List.getElem?_eq_some_iff.1 hsh).2]
  obtain ⟨hi1, hi2, _⟩ := hc.interlinks hg (c.length - k.toNat - 1) (by omega) last hlast
  have hpos : 0 < last.interlinks.length := by
    cases hll : last.interlinks with
    | nil => rw [hll] at hi1; simp at hi1
    | cons => simp
  have hlev : HasLevels W lv (c.take (c.length - k.toNat)) := fun p hp => hc.levels p (List.mem_of_mem_take hp)
  obtain ⟨P, anc, p1, p2, p3, p4, p5⟩ := proveLoop_spec W lv m.toNat hm _ hlev last.interlinks.length g [] (by simp)
  refine ⟨g, sh, last, _, P, anc, hg, hlast, hdrop, p2, ⟨hpos, p3 hpos, p4, fun x => by rw [p5 x]; simp⟩, ?_⟩
  unfold prove
  rw [if_neg (by omega), if_neg (by omega), if_neg]
  · split
    · simp at hg
    · next f rest _ =>
      have hfg : f = g := by simpa using hg
      have hh : g.header.height = 1 := by
        apply BitVec.eq_of_toNat_eq
        rw [hc.heights 0 g hg]; rfl
      rw [if_neg (by rw [hfg]; simp [hh]), if_neg (by omega)]
      dsimp only
      rw [hdrop]
      have hgl : ((f :: rest).take ((f :: rest).length - k.toNat)).getLast? = some last := by
        rw [List.getLast?_eq_getElem?, List.length_take, Nat.min_eq_left (by omega), List.getElem?_take_of_lt (by omega)]
        exact hlast
      rw [hgl]
      dsimp only
      have hrounds : rounds mode last.interlinks = .ok last.interlinks.length := by
        unfold rounds
        cases hll : last.interlinks with
        | nil => rw [hll] at hpos; simp at hpos
        | cons => rfl
      rw [← hfg] at p1
      rw [hrounds]
      show (proveLoop W m.toNat _ _ f [] >>= _) = _
      rw [p1]
      show NipopowProof.new m k _ sh _ = _
      unfold NipopowProof.new
      rw [if_pos hk]
  · rw [BitVec.toNat_add, Nat.mod_eq_of_lt hs]; omega

theorem mem_prefix {P F : List (PoPowHeader G)} {g : PoPowHeader G} {anc : Nat → PoPowHeader G} {m n : Nat}
    (hr : Rounds lv m n F g anc P) {x : PoPowHeader G} (hx : x ∈ P) : x ∈ F := by
  obtain ⟨_, _, h⟩ := (hr.mem x).1 hx
  exact (mem_subOf.1 h).1

/-- The first block is part of the proof. -/
theorem first_mem (hc : FullChain mode W lv c) {g : PoPowHeader G} (hg : c[0]? = some g) {L m n : Nat} (hL : 1 ≤ L)
    {anc : Nat → PoPowHeader G} {P : List (PoPowHeader G)} (hr : Rounds lv m n (c.take L) g anc P) (hn : n ≤ 2 ^ 31) : g ∈ P := by
  have hpos := hr.pos
  refine (hr.mem g).2 ⟨n - 1, by omega, mem_subOf.2 ⟨?_, ?_, ?_⟩⟩
  · exact List.mem_of_getElem? (i := 0) (by rw [List.getElem?_take_of_lt (by omega)]; exact hg)
  · rw [hc.first_level hg]; omega
  · rw [hr.top]

theorem allOk_true (H : HashFn) : ∀ l : List (PoPowHeader G), (∀ p ∈ l, p.checkInterlinks mode H = .ok true) →
    NipopowProof.allOk mode H l = .ok true := by
  intro l
  induction l with
  | nil => intro _; rfl
  | cons p l ih =>
    intro h
    simp only [NipopowProof.allOk]
    rw [h p (by simp)]
    exact ih (fun q hq => h q (by simp [hq]))

/-- The proof is valid. -/
theorem prove_valid (hc : FullChain mode W lv c) {g sh : PoPowHeader G} {st : List (PoPowHeader G)} (hg : c[0]? = some g) {L mm n : Nat}
    (hL : L < c.length) (hL1 : 1 ≤ L) (hd : c.drop L = sh :: st) {anc : Nat → PoPowHeader G} {P : List (PoPowHeader G)} (hnd : P.Nodup)
    (hr : Rounds lv mm n (c.take L) g anc P) (m k : BitVec 32) :
    NipopowProof.isValid mode W.H { m := m, k := k, pre := P.mergeSort heightLe, suffixHead := sh, suffixTail := st.map PoPowHeader.header }
      = .ok true := by
  have hsh : c[L]? = some sh := by
    have := congrArg (fun l => l[0]?) hd
    simpa using this
  have hst : ∀ (i : Nat) x, (sh :: st)[i]? = some x ↔ c[L + i]? = some x := by
    intro i x; rw [← hd, List.getElem?_drop]
  have hPc : ∀ x ∈ P, x ∈ c := fun x hx => List.mem_of_mem_take (mem_prefix hr hx)
  have hPlt : ∀ x ∈ P, x.header.height.toNat ≤ L := by
    intro x hx
    obtain ⟨j, hj⟩ := List.mem_iff_getElem?.1 (mem_prefix hr hx)
    have hjL : j < L := by
      have := (List.getElem?_eq_some_iff.1 hj).1
      simp at this; omega
    rw [List.getElem?_take_of_lt hjL] at hj
    have := hc.heights j _ hj
    omega
  have hsorted := sorted_heights P hnd (fun p hp q hq h => hc.inj (hPc p hp) (hPc q hq) h)
  have hshh := hc.heights L sh hsh
  have hmem : ∀ x, x ∈ P.mergeSort heightLe ↔ x ∈ P := fun x => List.mem_mergeSort
  have hcon : NipopowProof.connections { m := m, k := k, pre := P.mergeSort heightLe, suffixHead := sh, suffixTail := st.map PoPowHeader.header } = true := by
    rw [connections_iff]
    constructor
    · show (P.mergeSort heightLe ++ [sh]).IsChain Linked
      refine chain_of_gaps (fun p : PoPowHeader G => p.header.height.toNat) Linked _ ?_ ?_
      · rw [List.pairwise_append]
        refine ⟨hsorted, by simp, ?_⟩
        intro a ha b hb
        simp only [List.mem_singleton] at hb
        subst hb
        have := hPlt a ((hmem a).1 ha)
        omega
      · intro a ha b hb hab hgap
        have ha' : a ∈ P := by
          rcases List.mem_append.1 ha with h | h
          · exact (hmem a).1 h
          · simp only [List.mem_singleton] at h
            subst h
            rcases List.mem_append.1 hb with h' | h'
            · have := hPlt b ((hmem b).1 h'); omega
            · simp only [List.mem_singleton] at h'; subst h'; omega
        have hb' : ∃ ib ≤ L, c[ib]? = some b := by
          rcases List.mem_append.1 hb with h | h
          · obtain ⟨i, h1, h2⟩ := hc.index (hPc b ((hmem b).1 h))
            have := hPlt b ((hmem b).1 h)
            exact ⟨i, by omega, h1⟩
          · simp only [List.mem_singleton] at h
            subst h
            exact ⟨L, Nat.le_refl _, hsh⟩
        obtain ⟨ib, hib, hbi⟩ := hb'
        exact linked_gap hc hg hL hr ha' ib hib hbi hab (fun x hx => hgap x (List.mem_append_left _ ((hmem x).2 hx)))
    · show (sh.header :: st.map PoPowHeader.header).IsChain fun a b => b.parentId = a.id
      have : (sh.header :: st.map PoPowHeader.header) = (sh :: st).map PoPowHeader.header := rfl
      rw [this, List.isChain_iff_getElem]
      intro i hi
      simp only [List.length_map] at hi
      rw [List.getElem_map, List.getElem_map]
      have e1 : (sh :: st)[i]? = some (sh :: st)[i] := List.getElem?_eq_getElem (by omega)
      have e2 : (sh :: st)[i + 1]? = some (sh :: st)[i + 1] := List.getElem?_eq_getElem (by omega)
      rw [hst] at e1 e2
      exact hc.parents (L + i) _ _ e1 e2
  have hhei : NipopowProof.heights { m := m, k := k, pre := P.mergeSort heightLe, suffixHead := sh, suffixTail := st.map PoPowHeader.header } = true := by
    rw [heights_iff]
    show Rising ((P.mergeSort heightLe).map PoPowHeader.header ++ sh.header :: st.map PoPowHeader.header)
    unfold Rising
    have : (P.mergeSort heightLe).map PoPowHeader.header ++ sh.header :: st.map PoPowHeader.header =
        (P.mergeSort heightLe ++ (sh :: st)).map PoPowHeader.header := by simp
    rw [this, List.pairwise_map, List.pairwise_append]
    refine ⟨hsorted, ?_, ?_⟩
    · rw [List.pairwise_iff_getElem]
      intro i j hi hj hij
      have e1 : (sh :: st)[i]? = some (sh :: st)[i] := List.getElem?_eq_getElem hi
      have e2 : (sh :: st)[j]? = some (sh :: st)[j] := List.getElem?_eq_getElem hj
      rw [hst] at e1 e2
      have := hc.heights _ _ e1
      have := hc.heights _ _ e2
      omega
    · intro a ha b hb
      obtain ⟨i, hi⟩ := List.mem_iff_getElem?.1 hb
      rw [hst] at hi
      have := hc.heights _ _ hi
      have := hPlt a ((hmem a).1 ha)
      omega
  unfold NipopowProof.isValid
  rw [hcon, hhei]
  show NipopowProof.proofs mode W.H _ = _
  unfold NipopowProof.proofs
  refine allOk_true W.H _ (fun p hp => hc.checked p ?_)
  rcases List.mem_cons.1 hp with rfl | hp
  · exact List.mem_of_getElem? hsh
  · exact hPc p ((hmem p).1 hp)

/-- The blocks of each round: at least `m` of them or all there are. -/
theorem rounds_count {F P : List (PoPowHeader G)} {g : PoPowHeader G} {anc : Nat → PoPowHeader G} {m n : Nat}
    (hF : F.Pairwise fun a b => a.header.height.toNat < b.header.height.toNat) (hg : g.header.height.toNat = 1)
    (hr : Rounds lv m n F g anc P) : ∀ d, d < n →
      (anc (n - 1 - d)).header.height.toNat ≤ 1 ∨ m ≤ (subOf lv (n - 1 - d) (anc (n - 1 - d)).header.height.toNat F).length := by
  intro d
  induction d with
  | zero => intro _; left; rw [Nat.sub_zero, hr.top, hg]
  | succ d ih =>
    intro hd
    have hstep := hr.step (n - 1 - (d + 1)) (by omega)
    rw [show n - 1 - (d + 1) + 1 = n - 1 - d from by omega] at hstep
    generalize hℓ : n - 1 - (d + 1) = ℓ at *
    have hu : n - 1 - d = ℓ + 1 := by omega
    rw [hu] at hstep ih
    -- lower level, same height: more blocks
    have mono : ∀ h, (subOf lv (ℓ + 1) h F).length ≤ (subOf lv ℓ h F).length := by
      intro h
      unfold subOf
      rw [← List.countP_eq_length_filter, ← List.countP_eq_length_filter]
      apply List.countP_mono_left
      intro x _ hx
      simp only [decide_eq_true_eq] at *
      omega
    unfold nextAnchor at hstep
    dsimp only at hstep
    by_cases hlt : m < (subOf lv (ℓ + 1) (anc (ℓ + 1)).header.height.toNat F).length
    · rw [if_pos hlt] at hstep
      generalize hS : subOf lv (ℓ + 1) (anc (ℓ + 1)).header.height.toNat F = S at *
      by_cases hm0 : m = 0
      · right; omega
      rw [List.getElem?_eq_getElem (by omega)] at hstep
      right
      have hSs : S.Pairwise fun a b => a.header.height.toNat < b.header.height.toNat := by
        rw [← hS]; unfold subOf; exact List.Pairwise.filter _ hF
      -- the last `m` blocks of the round above are at least as high as the new anchor
      have hsub : (S.drop (S.length - m)).length ≤ (subOf lv ℓ (anc ℓ).header.height.toNat F).length := by
        have h1 : (S.drop (S.length - m)) = (S.drop (S.length - m)).filter
            (fun p => decide (ℓ ≤ lv p ∧ (anc ℓ).header.height.toNat ≤ p.header.height.toNat)) := by
          symm
          rw [List.filter_eq_self]
          intro x hx
          simp only [decide_eq_true_eq]
          have hxS := List.mem_of_mem_drop hx
          rw [← hS, mem_subOf] at hxS
          refine ⟨by omega, ?_⟩
          rw [hstep]
          simp only [Option.getD_some]
          obtain ⟨j, hj, rfl⟩ := List.mem_iff_getElem.1 hx
          rw [List.getElem_drop]
          cases j with
          | zero => simp
          | succ j =>
            simp only [List.length_drop] at hj
            exact Nat.le_of_lt (List.pairwise_iff_getElem.1 hSs _ _ (by omega) (by omega) (by omega))
        rw [h1]
        have h2 : (S.drop (S.length - m)).Sublist F := by
          refine (List.drop_sublist _ _).trans ?_
          rw [← hS]
          unfold subOf
          exact List.filter_sublist
        exact (h2.filter _).length_le
      rw [List.length_drop] at hsub
      omega
    · rw [if_neg hlt] at hstep
      rw [hstep]
      rcases ih (by omega) with h | h
      · exact .inl h
      · right
        have := mono (anc (ℓ + 1)).header.height.toNat
        omega

end Verif
