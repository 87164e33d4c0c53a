import Verif.Proofs.TimerHeap

set_option linter.unusedSimpArgs false
set_option linter.unusedVariables false

namespace Verif
namespace TimerHeap
open Spec.TimerHeap

variable {T : Type} {le : T → T → Bool}

/-! ## The items as a list -/

theorem slots_nodup {h : Heap T} (hl : Link h.items h.index) : (h.items.map Prod.snd).Nodup := by
  rw [List.nodup_iff_pairwise_ne, List.pairwise_iff_getElem]
  intro i j hi hj hij e
  simp only [List.length_map] at hi hj
  simp only [List.getElem_map] at e
  have h1 := (hl i h.items[i].2).1 ⟨h.items[i].1, by rw [List.getElem?_eq_getElem hi]⟩
  have h2 := (hl j h.items[j].2).1 ⟨h.items[j].1, by rw [List.getElem?_eq_getElem hj]⟩
  rw [e, h2] at h1
  injection h1 with h1
  injection h1 with h1
  omega

theorem nodup_of_map {α β : Type} (f : α → β) {l : List α} (h : (l.map f).Nodup) : l.Nodup := by
  rw [List.nodup_iff_pairwise_ne, List.pairwise_map] at h
  rw [List.nodup_iff_pairwise_ne]
  exact h.imp (fun hne e => hne (by rw [e]))

theorem items_nodup {h : Heap T} (hl : Link h.items h.index) : h.items.Nodup := nodup_of_map _ (slots_nodup hl)

/-- The items after an element was stored. -/
theorem items_insert {h h' : Heap T} (hi : Link h.items h.index) (hi' : Link h'.items h'.index) {s : Nat} {t : T}
    (hs : contents h s = none) (hc : contents h' = fun k => if k = s then some t else contents h k) :
    h'.items.Perm ((t, s) :: h.items) := by
  have hn : ∀ x, (x, s) ∉ h.items := fun x hx => by
    rw [← contents_iff hi, hs] at hx; cases hx
  rw [List.perm_ext_iff_of_nodup (items_nodup hi') (List.nodup_cons.2 ⟨hn t, items_nodup hi⟩)]
  rintro ⟨x, k⟩
  rw [← contents_iff hi', hc, List.mem_cons]
  dsimp only
  by_cases e : k = s
  · subst e
    simp [hn x, eq_comm]
  · simp [e, contents_iff hi]

theorem push_perm (L : TotalPre le) {h : Heap T} (hi : Inv le h) (t : T) :
    ∃ s h', h.push le t = .ok (s, h') ∧ Inv le h' ∧ (h'.items.map Prod.fst).Perm (t :: h.items.map Prod.fst) := by
  obtain ⟨s, h', e, hi', hn, hc⟩ := push_spec L hi t
  exact ⟨s, h', e, hi', by simpa using (items_insert hi.link hi'.link hn hc).map Prod.fst⟩

theorem pop_perm (L : TotalPre le) {h : Heap T} (hi : Inv le h) (hne : h.items ≠ []) :
    ∃ t h', h.pop le = .ok (some t, h') ∧ Inv le h' ∧ (h.items.map Prod.fst).Perm (t :: h'.items.map Prod.fst) ∧
      (∀ x ∈ h.items.map Prod.fst, le t x = true) ∧ h'.items.length + 1 = h.items.length := by
  rcases pop_spec L hi with ⟨_, _, h3⟩ | ⟨s, t, h', _, e, hi', hl, hc, hlen⟩
  · exfalso
    rcases hx : h.items with _ | ⟨x, l⟩
    · exact hne hx
    · have : contents h x.2 = some x.1 := (contents_iff hi.link _ _).2 (by rw [hx]; simp)
      rw [h3] at this; cases this
  · refine ⟨t, h', e, hi', ?_, ?_, hlen⟩
    · have hs : contents h' s = none := by rw [hc]; simp
      have := items_insert (h := h') (h' := h) hi'.link hi.link (s := s) (t := t) hs (by
        funext k
        rw [hc]
        dsimp only
        by_cases e : k = s
        · subst e; simp [hl.1]
        · simp [e])
      simpa using this.map Prod.fst
    · intro x hx
      rw [List.mem_map] at hx
      obtain ⟨⟨y, k⟩, hm, rfl⟩ := hx
      exact hl.2 k y ((contents_iff hi.link _ _).2 hm)

theorem pushes_spec (L : TotalPre le) : ∀ (l : List T) (h : Heap T), Inv le h →
    ∃ slots h', calls le h (l.map .push) = .ok (List.zipWith (fun t s => (Op.push t, Out.slot s)) l slots, h') ∧
      slots.length = l.length ∧ Inv le h' ∧ (h'.items.map Prod.fst).Perm (l ++ h.items.map Prod.fst)
  | [], h, hi => ⟨[], h, rfl, rfl, hi, by simp⟩
  | t :: l, h, hi => by
    obtain ⟨s, h1, e1, hi1, p1⟩ := push_perm L hi t
    obtain ⟨ss, h2, e2, hlen, hi2, p2⟩ := pushes_spec L l h1 hi1
    refine ⟨s :: ss, h2, by simp [calls, call, e1, e2], by simp [hlen], hi2, ?_⟩
    refine p2.trans ?_
    exact ((List.Perm.append_left l p1).trans List.perm_middle)

theorem pops_spec (L : TotalPre le) : ∀ (k : Nat) (h : Heap T), Inv le h → h.items.length = k →
    ∃ (out : List T) (h' : Heap T), calls le h (List.replicate k .pop) = .ok (out.map (fun t => (Op.pop, Out.head (some t))), h') ∧
      out.Perm (h.items.map Prod.fst) ∧ out.Pairwise (fun a b => le a b = true)
  | 0, h, hi, hk => by
    have : h.items = [] := List.eq_nil_of_length_eq_zero hk
    exact ⟨[], h, rfl, by simp [this], .nil⟩
  | k + 1, h, hi, hk => by
    obtain ⟨t, h1, e1, hi1, p1, hle, hlen⟩ := pop_perm L hi (by intro e; simp [e] at hk)
    obtain ⟨out, h2, e2, p2, ps⟩ := pops_spec L k h1 hi1 (by omega)
    refine ⟨t :: out, h2, by simp [List.replicate_succ, calls, call, e1, e2], (List.Perm.cons t p2).trans p1.symm, ?_⟩
    refine List.pairwise_cons.2 ⟨fun x hx => hle x ?_, ps⟩
    exact p1.symm.subset (List.mem_cons_of_mem _ (p2.subset hx))

/-! ## The consistency check -/

/-- The entry is in use. -/
def isFull : SlabSlot → Bool
  | .full _ => true
  | .empty _ => false

theorem filter_len {α : Type} (p : α → Bool) (l : List α) :
    (l.filter p).length = ((List.range l.length).filter fun i => (l[i]?.map p).getD false).length := by
  induction l with
  | nil => rfl
  | cons a l ih =>
    rw [List.length_cons, List.range_succ_eq_map, List.filter_cons, List.filter_cons]
    simp only [List.getElem?_cons_zero, Option.map_some, Option.getD_some, List.filter_map, List.length_map]
    have hc : ((fun i => ((a :: l)[i]?.map p).getD false) ∘ Nat.succ) = fun i => (l[i]?.map p).getD false := by
      funext i; simp
    split <;> simp [hc, ih]

theorem consistent_len {h : Heap T} (hl : Link h.items h.index) : h.items.length = (h.index.filter isFull).length := by
  rw [filter_len, ← List.length_map (f := Prod.snd) (as := h.items)]
  apply List.Perm.length_eq
  rw [List.perm_ext_iff_of_nodup (slots_nodup hl) (List.nodup_range.filter _)]
  intro s
  rw [List.mem_map, List.mem_filter, List.mem_range]
  constructor
  · rintro ⟨⟨t, s'⟩, hm, rfl⟩
    obtain ⟨i, hi⟩ := List.mem_iff_getElem?.1 hm
    have := (hl i s').1 ⟨t, hi⟩
    exact ⟨lt_of_get this, by simp [this, isFull]⟩
  · rintro ⟨hlt, hf⟩
    rw [List.getElem?_eq_getElem hlt] at hf
    simp only [Option.map_some, Option.getD_some] at hf
    rcases hx : h.index[s] with n | v
    · rw [hx] at hf; cases hf
    · obtain ⟨t, ht⟩ := (hl v s).2 (by rw [List.getElem?_eq_getElem hlt, hx])
      exact ⟨(t, s), List.mem_iff_getElem?.2 ⟨v, ht⟩, rfl⟩

theorem inv_consistent {h : Heap T} (hi : Inv le h) : h.consistent le = true := by
  have hlen := consistent_len hi.link
  have hp : ∀ i c p x, c = 2 * i + 1 ∨ c = 2 * i + 2 → h.items[i]? = some p → h.items[c]? = some x → le p.1 x.1 = true := by
    intro i c p x hc h1 h2
    refine hi.order c (by omega) p x ?_ h2
    have : (c - 1) / 2 = i := by omega
    simpa only [this] using h1
  unfold Heap.consistent
  rw [Bool.and_eq_true, Bool.and_eq_true]
  refine ⟨⟨?_, ?_⟩, ?_⟩
  · rw [beq_iff_eq, hlen]
    rfl
  · rw [List.all_eq_true]
    intro i hm
    rw [List.mem_range] at hm
    rw [List.getElem?_eq_getElem hm]
    have := (hi.link i h.items[i].2).1 ⟨h.items[i].1, by rw [List.getElem?_eq_getElem hm]⟩
    dsimp only
    rw [this]
    simp
  · rw [List.all_eq_true]
    intro i hm
    rw [List.mem_range] at hm
    have hi' := List.getElem?_eq_getElem hm
    rw [hi']
    dsimp only
    rw [Bool.and_eq_true, Bool.and_eq_true]
    refine ⟨⟨?_, ?_⟩, ?_⟩
    · by_cases h0 : 0 < i
      · rw [if_pos h0, List.getElem?_eq_getElem (show (i - 1) / 2 < h.items.length by omega)]
        exact hi.order i h0 _ _ (List.getElem?_eq_getElem (show (i - 1) / 2 < h.items.length by omega)) hi'
      · rw [if_neg h0]
    · rcases hx : h.items[2 * i + 1]? with _ | x
      · rfl
      · exact hp i _ _ _ (Or.inl rfl) hi' hx
    · rcases hx : h.items[2 * i + 2]? with _ | x
      · rfl
      · exact hp i _ _ _ (Or.inr rfl) hi' hx

end TimerHeap
end Verif
