import Verif.Proofs.MerkleBatch

set_option linter.unusedSimpArgs false
set_option linter.unusedVariables false

namespace Verif.Merkle
open Spec

/-- `h` occurs in the tree. -/
def IsNode (H : HashFn) (leaves : List Bytes) (D : Nat) (h : Bytes) : Prop := ∃ k, k ≤ D ∧ h ∈ level H leaves k

theorem node_preimage {H : HashFn} {leaves : List Bytes} {D : Nat} {w : Bytes} (ys : List Bytes)
    (hy : (1#8 :: w) ∈ ys) (h : IsNode H leaves D (H (1#8 :: w))) :
    (∃ j, j < D ∧ (1#8 :: w) ∈ pairPres (level H leaves j)) ∨ Collision H (treeInputs H leaves D) ys := by
  obtain ⟨k, hk, hm⟩ := h
  cases k with
  | zero =>
    simp only [level, List.mem_map] at hm
    obtain ⟨d, hd, he⟩ := hm
    right
    exact ⟨leafPre d, mem_treeInputs_leaf hd, _, hy, by simp [leafPre], he⟩
  | succ k =>
    simp only [level, List.mem_map] at hm
    obtain ⟨pre, hpre, he⟩ := hm
    by_cases e : pre = 1#8 :: w
    · subst e; exact Or.inl ⟨k, by omega, hpre⟩
    · exact Or.inr ⟨pre, mem_treeInputs_pair (by omega) hpre, _, hy, e, he⟩

theorem mem_pairPres {H : HashFn} {leaves : List Bytes} {j : Nat} {pre : Bytes}
    (h : pre ∈ pairPres (level H leaves j)) : ∃ a b, a ∈ level H leaves j ∧ (∀ x, b = some x → x ∈ level H leaves j) ∧
      pre = nodePre (some a) b := by
  obtain ⟨q, hq⟩ := List.mem_iff_getElem?.1 h
  rw [pairPres_get, Option.map_eq_some_iff] at hq
  obtain ⟨a, ha, rfl⟩ := hq
  exact ⟨a, _, List.mem_of_getElem? ha, fun x hx => List.mem_of_getElem? hx, rfl⟩

theorem children_of_pair {H : HashFn} {leaves : List Bytes} {j : Nat} {c d : Bytes} (hc : c.length = 32)
    (hd : d.length = 32) (h : nodePre (some c) (some d) ∈ pairPres (level H leaves j)) :
    c ∈ level H leaves j ∧ d ∈ level H leaves j := by
  obtain ⟨a, b, ha, hb, he⟩ := mem_pairPres h
  have := nodePre_inj ⟨c, rfl, hc⟩ ⟨a, rfl, level_hash_len H leaves j a ha⟩ (by simpa using hd)
    (fun x hx => level_hash_len H leaves j x (hb x hx)) he
  exact ⟨by have h1 := this.1; simp at h1; rw [h1]; exact ha, hb d this.2.symm⟩

theorem child_of_single {H : HashFn} {leaves : List Bytes} {j : Nat} {c : Bytes} (hc : c.length = 32)
    (h : nodePre (some c) none ∈ pairPres (level H leaves j)) : c ∈ level H leaves j := by
  obtain ⟨a, b, ha, hb, he⟩ := mem_pairPres h
  have := nodePre_inj ⟨c, rfl, hc⟩ ⟨a, rfl, level_hash_len H leaves j a ha⟩ (by simp)
    (fun x hx => level_hash_len H leaves j x (hb x hx)) he
  have h1 := this.1; simp at h1; rw [h1]; exact ha

theorem headPre_child {H : HashFn} {leaves : List Bytes} {D : Nat} {e : Bytes} {head : LevelNode} (he : e.length = 32)
    (hh : ∀ x, head.hash = some x → x.length = 32) (ys : List Bytes) (hy : headPre e head ∈ ys)
    (h : IsNode H leaves D (H (headPre e head))) :
    IsNode H leaves D e ∨ Collision H (treeInputs H leaves D) ys := by
  have hform : ∃ w, headPre e head = 1#8 :: w := by
    unfold headPre nodePre; split <;> exact ⟨_, rfl⟩
  obtain ⟨w, hw⟩ := hform
  rw [hw] at h hy
  rcases node_preimage ys hy h with ⟨j, hj, hm⟩ | hc
  · left
    rw [← hw] at hm
    refine ⟨j, by omega, ?_⟩
    unfold headPre at hm
    cases hs : head.side with
    | left =>
      rw [hs] at hm
      cases hx : head.hash with
      | none =>
        rw [hx] at hm
        exact child_of_single he (by simpa [nodePre] using hm)
      | some x =>
        rw [hx] at hm
        exact (children_of_pair (hh x hx) he hm).2
    | right =>
      rw [hs] at hm
      cases hx : head.hash with
      | none => rw [hx] at hm; exact child_of_single he hm
      | some x => rw [hx] at hm; exact (children_of_pair he (hh x hx) hm).1
  · exact Or.inr hc

/-- One round: if all results are hashes of the tree then all inputs are (or there is a collision). -/
theorem round_sound (H : HashFn) (leaves : List Bytes) (D : Nat) : ∀ (l : List ((Nat × Nat) × Bytes)) (m : List LevelNode)
    (es : List Bytes) (m' : List LevelNode), validateLevel H l m = some (es, m') → (∀ x ∈ l, x.2.length = 32) →
    LevelsOk m →
    (∀ e ∈ es, e.length = 32) ∧ LevelsOk m' ∧
      ((∀ e ∈ es, IsNode H leaves D e) → (∀ x ∈ l, IsNode H leaves D x.2) ∨
        Collision H (treeInputs H leaves D) (roundInputs H l m)) := by
  intro l m
  fun_induction validateLevel H l m with
  | case1 m =>
    intro es m' h _ hok
    simp at h; obtain ⟨rfl, rfl⟩ := h
    exact ⟨by simp, hok, fun _ => Or.inl (by simp)⟩
  | case2 => intro es m' h; simp at h
  | case3 b e head m =>
    intro es m' h hl hok
    simp at h; obtain ⟨rfl, rfl⟩ := h
    refine ⟨by simp [H.len], fun x hx => hok x (by simp [hx]), fun hn => ?_⟩
    have hpre : headPre e head ∈ roundInputs H [(b, e)] (head :: m) := by unfold roundInputs; simp
    rcases headPre_child (hl (b, e) (by simp)) (hok head (by simp)) _ hpre (hn _ (by simp)) with h | h
    · left; intro x hx; simp at hx; subst hx; exact h
    · exact Or.inr h
  | case4 e1 b e2 rest m ih =>
    intro es m' h hl hok
    simp only [Option.bind_eq_bind, Option.bind_eq_some_iff] at h
    obtain ⟨⟨es', m''⟩, h1, h2⟩ := h
    simp only [Option.pure_def, Option.some.injEq, Prod.mk.injEq] at h2
    obtain ⟨rfl, rfl⟩ := h2
    obtain ⟨i1, i2, i3⟩ := ih _ _ h1 (fun x hx => hl x (by simp [hx])) hok
    refine ⟨?_, i2, fun hn => ?_⟩
    · intro x hx
      rcases List.mem_cons.1 hx with rfl | hx
      · exact H.len _
      · exact i1 x hx
    · have hpre : nodePre (some e1) (some e2) ∈ roundInputs H ((b, e1) :: (b, e2) :: rest) m := by
        unfold roundInputs; simp
      have hsub : ∀ y ∈ roundInputs H rest m, y ∈ roundInputs H ((b, e1) :: (b, e2) :: rest) m := by
        intro y hy; unfold roundInputs; simp [hy]
      rcases i3 (fun x hx => hn x (by simp [hx])) with h3 | ⟨x, hx, y, hy, hxy⟩
      · rcases node_preimage (w := (some e1).getD [] ++ (some e2).getD []) _ hpre (hn _ (by simp; left; rfl)) with
          ⟨j, hj, hm⟩ | hc
        · left
          have hch := children_of_pair (hl (b, e1) (by simp)) (hl (b, e2) (by simp)) hm
          intro x hx
          rcases List.mem_cons.1 hx with rfl | hx
          · exact ⟨j, by omega, hch.1⟩
          rcases List.mem_cons.1 hx with rfl | hx
          · exact ⟨j, by omega, hch.2⟩
          · exact h3 x hx
        · exact Or.inr hc
      · exact Or.inr ⟨x, hx, y, hsub y hy, hxy⟩
  | case5 => intro es m' h; simp at h
  | case6 b1 e1 b2 e2 rest hne head m ih =>
    intro es m' h hl hok
    simp only [Option.bind_eq_bind, Option.bind_eq_some_iff] at h
    obtain ⟨⟨es', m''⟩, h1, h2⟩ := h
    simp only [Option.pure_def, Option.some.injEq, Prod.mk.injEq] at h2
    obtain ⟨rfl, rfl⟩ := h2
    obtain ⟨i1, i2, i3⟩ := ih _ _ h1 (fun x hx => hl x (List.mem_cons_of_mem _ hx)) (fun x hx => hok x (by simp [hx]))
    refine ⟨?_, i2, fun hn => ?_⟩
    · intro x hx
      rcases List.mem_cons.1 hx with rfl | hx
      · exact H.len _
      · exact i1 x hx
    · have hpre : headPre e1 head ∈ roundInputs H ((b1, e1) :: (b2, e2) :: rest) (head :: m) := by
        unfold roundInputs; simp [hne]
      have hsub : ∀ y ∈ roundInputs H ((b2, e2) :: rest) m,
          y ∈ roundInputs H ((b1, e1) :: (b2, e2) :: rest) (head :: m) := by
        intro y hy; rw [roundInputs]; simp [hne, hy]
      rcases i3 (fun x hx => hn x (by simp [hx])) with h3 | ⟨x, hx, y, hy, hxy⟩
      · rcases headPre_child (hl (b1, e1) (by simp)) (hok head (by simp)) _ hpre (hn _ (by simp)) with h4 | h4
        · left
          intro x hx
          rcases List.mem_cons.1 hx with rfl | hx
          · exact h4
          · exact h3 x hx
        · exact Or.inr h4
      · exact Or.inr ⟨x, hx, y, hsub y hy, hxy⟩

/-- For strictly increasing positions a round yields one hash per parent: nothing is dropped. -/
theorem round_length (H : HashFn) : ∀ (S : List Nat) (hs : List Bytes) (m : List LevelNode) (es : List Bytes)
    (m' : List LevelNode), hs.length = S.length →
    validateLevel H ((S.map pairOf).zip hs) m = some (es, m') → es.length = (parents S).length := by
  intro S
  fun_induction parents S with
  | case1 =>
    intro hs m es m' hl h
    simp [validateLevel] at h; simp [← h.1]
  | case2 p =>
    intro hs m es m' hl h
    match hs, hl with
    | [x], _ =>
      simp only [List.map_cons, List.map_nil, List.zip_cons_cons, List.zip_nil_right] at h
      unfold validateLevel at h
      split at h
      · cases h
      · simp at h; simp [← h.1]
  | case3 p q r hpq ih =>
    intro hs m es m' hl h
    match hs, hl with
    | x :: y :: hs, hl =>
      simp only [List.map_cons, List.zip_cons_cons] at h
      unfold validateLevel at h
      rw [if_pos ((pairOf_eq_iff p q).2 hpq)] at h
      simp only [Option.bind_eq_bind, Option.bind_eq_some_iff] at h
      obtain ⟨⟨es', m''⟩, h1, h2⟩ := h
      simp only [Option.pure_def, Option.some.injEq, Prod.mk.injEq] at h2
      obtain ⟨rfl, rfl⟩ := h2
      simp only [List.length_cons] at hl ⊢
      rw [ih hs m _ _ (by omega) h1]
  | case4 p q r hpq ih =>
    intro hs m es m' hl h
    match hs, hl with
    | x :: y :: hs, hl =>
      simp only [List.map_cons, List.zip_cons_cons] at h
      unfold validateLevel at h
      rw [if_neg (fun hc => hpq ((pairOf_eq_iff p q).1 hc))] at h
      cases m with
      | nil => simp at h
      | cons head m =>
        simp only [Option.bind_eq_bind, Option.bind_eq_some_iff] at h
        obtain ⟨⟨es', m''⟩, h1, h2⟩ := h
        simp only [Option.pure_def, Option.some.injEq, Prod.mk.injEq] at h2
        obtain ⟨rfl, rfl⟩ := h2
        simp only [List.length_cons] at hl ⊢
        rw [ih (y :: hs) m _ _ (by simp; omega) h1]

theorem zip_map_hash : ∀ (a : List Nat) (es : List Bytes), a.length = es.length →
    ((a.zip es).map (fun p => ({ index := p.1, hash := p.2 } : Indexed))).map Indexed.hash = es := by
  intro a
  induction a with
  | nil => intro es h; cases es <;> simp at h ⊢
  | cons x a ih => intro es h; cases es with
    | nil => simp at h
    | cons y es => simp only [List.zip_cons_cons, List.map_cons, ih es (by simpa using h)]

theorem zip_map_snd {α β : Type} : ∀ (a : List α) (b : List β) (x : α × β), x ∈ a.zip b → x.2 ∈ b :=
  fun _ _ _ h => (List.of_mem_zip h).2

theorem batch_sound (H : HashFn) (leaves : List Bytes) (D : Nat) : ∀ (rounds : Nat) (a : List Nat) (e : List Indexed)
    (m : List LevelNode) (es : List Bytes), e.length + m.length ≤ rounds → validate H a e m = some es → Sorted a →
    (∀ x ∈ e, x.hash.length = 32) → LevelsOk m → (∀ h ∈ es, IsNode H leaves D h) →
    (∀ x ∈ e, IsNode H leaves D x.hash) ∨ Collision H (treeInputs H leaves D) (batchRounds H rounds a e m) := by
  intro rounds
  induction rounds with
  | zero =>
    intro a e m es hr hv hs he hm hn
    left
    intro x hx
    have : e = [] := List.length_eq_zero_iff.1 (by omega)
    subst this; cases hx
  | succ rounds ih =>
    intro a e m es hr hv hs he hm hn
    unfold validate at hv
    split at hv
    · cases hv
    rename_i hlen
    simp only [ne_eq, Classical.not_not] at hlen
    have hlenzip : (e.map Indexed.hash).length = a.length := by simpa using hlen
    have hl32 : ∀ x ∈ (a.map pairOf).zip (e.map Indexed.hash), x.2.length = 32 := by
      intro x hx
      have := zip_map_snd _ _ _ hx
      obtain ⟨y, hy, hye⟩ := List.mem_map.1 this
      rw [← hye]; exact he y hy
    -- membership of an entry in the zipped list
    have hcover : ∀ x ∈ e, ∃ z ∈ (a.map pairOf).zip (e.map Indexed.hash), z.2 = x.hash := by
      intro x hx
      obtain ⟨i, hi, hxe⟩ := List.mem_iff_getElem.1 hx
      have hi2 : i < ((a.map pairOf).zip (e.map Indexed.hash)).length := by simp; omega
      refine ⟨_, List.getElem_mem hi2, ?_⟩
      simp [hxe]
    split at hv
    · cases hv
    rename_i eNew mNew hvl
    obtain ⟨r1, r2, r3⟩ := round_sound H leaves D _ _ _ _ hvl hl32 hm
    have hsubset : ∀ y ∈ roundInputs H ((a.map pairOf).zip (e.map Indexed.hash)) m,
        y ∈ batchRounds H (rounds + 1) a e m := by
      intro y hy; unfold batchRounds; simp only; exact List.mem_append.2 (Or.inl hy)
    have finish : (∀ h ∈ eNew, IsNode H leaves D h) → (∀ x ∈ e, IsNode H leaves D x.hash) ∨
        Collision H (treeInputs H leaves D) (batchRounds H (rounds + 1) a e m) := by
      intro hnew
      rcases r3 hnew with h | ⟨x, hx, y, hy, hxy⟩
      · left
        intro x hx
        obtain ⟨z, hz, hze⟩ := hcover x hx
        rw [← hze]; exact h z hz
      · exact Or.inr ⟨x, hx, y, hsubset y hy, hxy⟩
    simp only at hv
    split at hv
    · rename_i hcond
      have hts : toSet (List.map (fun b => b.2 / 2) (List.map pairOf a)) = parents a := toSet_parents a hs
      rw [hts] at hv hcond
      have hlenNew : (parents a).length = eNew.length := (round_length H a _ m eNew mNew hlenzip hvl).symm
      have hmeas := (validateLevel_measure H _ _ _ _ hvl).2 (by
        intro h0
        have hl := congrArg List.length h0
        simp only [List.length_zip, List.length_map, List.length_nil] at hl
        have : a.length = 0 := by omega
        have : a = [] := List.length_eq_zero_iff.1 this
        subst this
        exact hcond.2 (by unfold parents; rfl))
      simp only [List.length_zip, List.length_map] at hmeas
      have he' : ∀ x ∈ ((parents a).zip eNew).map (fun p => ({ index := p.1, hash := p.2 } : Indexed)),
          x.hash.length = 32 := by
        intro x hx
        have : x.hash ∈ eNew := by
          rw [← zip_map_hash (parents a) eNew hlenNew]; exact List.mem_map.2 ⟨x, hx, rfl⟩
        exact r1 _ this
      rcases ih (parents a) _ mNew es (by simp only [List.length_map, List.length_zip]; omega) hv (parents_sorted a hs)
        he' r2 hn with h | ⟨x, hx, y, hy, hxy⟩
      · refine finish (fun h' hh' => ?_)
        rw [← zip_map_hash (parents a) eNew hlenNew] at hh'
        obtain ⟨x, hx, rfl⟩ := List.mem_map.1 hh'
        exact h x hx
      · right
        refine ⟨x, hx, y, ?_, hxy⟩
        unfold batchRounds
        simp only [hvl, hts]
        exact List.mem_append.2 (Or.inr hy)
    · cases hv
      exact finish hn

theorem validate_step (H : HashFn) (a : List Nat) (e : List Indexed) (m : List LevelNode) (eNew : List Bytes)
    (mNew : List LevelNode) (hl : e.length = a.length)
    (h : validateLevel H ((a.map pairOf).zip (e.map Indexed.hash)) m = some (eNew, mNew)) :
    validate H a e m =
      if (mNew ≠ [] ∨ eNew.length > 1) ∧ toSet ((a.map pairOf).map (fun b => b.2 / 2)) ≠ [] then
        validate H (toSet ((a.map pairOf).map (fun b => b.2 / 2)))
          (((toSet ((a.map pairOf).map (fun b => b.2 / 2))).zip eNew).map (fun p => { index := p.1, hash := p.2 })) mNew
      else some eNew := by
  rw [validate, if_neg (by simp [hl])]
  split
  · rename_i h'; rw [h] at h'; cases h'
  · rename_i h'; rw [h] at h'; cases h'; rfl

theorem insertByIndex_perm (x : Indexed) : ∀ l, (insertByIndex x l).Perm (x :: l) := by
  intro l
  induction l with
  | nil => exact List.Perm.refl _
  | cons y l ih =>
    unfold insertByIndex
    split
    · exact List.Perm.refl _
    · exact (List.Perm.cons y ih).trans (List.Perm.swap x y l)

theorem sortByIndex_perm (l : List Indexed) : (sortByIndex l).Perm l := by
  have : ∀ (l acc : List Indexed), (l.foldl (fun acc x => insertByIndex x acc) acc).Perm (acc ++ l) := by
    intro l
    induction l with
    | nil => intro acc; simp
    | cons x l ih =>
      intro acc
      refine (ih _).trans ?_
      refine ((insertByIndex_perm x acc).append_right l).trans ?_
      simpa using (List.perm_middle (a := x) (l₁ := acc) (l₂ := l)).symm
  simpa [sortByIndex] using this l []

theorem insertByIndex_sorted (x : Indexed) : ∀ l, (l.map Indexed.index).Pairwise (· ≤ ·) →
    ((insertByIndex x l).map Indexed.index).Pairwise (· ≤ ·) := by
  intro l
  induction l with
  | nil => intro _; simp [insertByIndex]
  | cons y l ih =>
    intro h
    have h' := List.pairwise_cons.1 (by simpa using h : (y.index :: l.map Indexed.index).Pairwise (· ≤ ·))
    unfold insertByIndex
    split
    · rename_i hlt
      simp only [List.map_cons]
      refine List.pairwise_cons.2 ⟨?_, by simpa using h⟩
      intro z hz
      rcases List.mem_cons.1 hz with rfl | hz
      · omega
      · have := h'.1 z hz; omega
    · rename_i hlt
      simp only [List.map_cons]
      refine List.pairwise_cons.2 ⟨?_, ih h'.2⟩
      intro z hz
      obtain ⟨w, hw, rfl⟩ := List.mem_map.1 hz
      rcases List.mem_cons.1 ((insertByIndex_perm x l).mem_iff.1 hw) with rfl | hw
      · omega
      · exact h'.1 _ (List.mem_map.2 ⟨w, hw, rfl⟩)

theorem sortByIndex_strict (l : List Indexed) (hnd : (l.map Indexed.index).Nodup) :
    Sorted ((sortByIndex l).map Indexed.index) := by
  have h1 : ((sortByIndex l).map Indexed.index).Pairwise (· ≤ ·) := by
    have : ∀ (l acc : List Indexed), (acc.map Indexed.index).Pairwise (· ≤ ·) →
        ((l.foldl (fun acc x => insertByIndex x acc) acc).map Indexed.index).Pairwise (· ≤ ·) := by
      intro l
      induction l with
      | nil => intro acc h; exact h
      | cons x l ih => intro acc h; exact ih _ (insertByIndex_sorted x acc h)
    exact this l [] (by simp)
  have h2 : ((sortByIndex l).map Indexed.index).Nodup := ((sortByIndex_perm l).map _).nodup_iff.2 hnd
  exact (h1.and h2).imp (fun h => by omega)

theorem batch_valid_sound (H : HashFn) (leaves : List Bytes) (D : Nat) (r : Bytes) (hr : level H leaves D = [r])
    (p : Batch) (hok : BatchOk p) (hnd : (p.indices.map Indexed.index).Nodup) (hv : p.valid H r = true) :
    (∀ x ∈ p.indices, IsNode H leaves D x.hash) ∨ Collision H (treeInputs H leaves D) (batchInputs H p) := by
  unfold Batch.valid at hv
  simp only at hv
  have hperm := sortByIndex_perm p.indices
  split at hv
  · rename_i r' hval
    simp only [decide_eq_true_eq] at hv
    subst hv
    rcases batch_sound H leaves D (p.indices.length + p.proofs.length) _ _ _ _
      (by rw [hperm.length_eq]; exact Nat.le_refl _) hval (sortByIndex_strict _ hnd)
      (fun x hx => hok.1 x (hperm.mem_iff.1 hx)) hok.2
      (by intro h hh; simp at hh; subst hh; exact ⟨D, Nat.le_refl _, by rw [hr]; simp⟩) with h | h
    · exact Or.inl (fun x hx => h x (hperm.mem_iff.2 hx))
    · exact Or.inr h
  · cases hv

end Verif.Merkle
