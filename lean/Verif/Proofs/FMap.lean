import Verif.Model.FMap
import Mathlib.Data.List.Perm.Subperm
import Mathlib.Data.List.Nodup

/-! Helper lemmas about finite maps. -/

set_option linter.unusedSimpArgs false
set_option linter.unusedVariables false

namespace Verif.FMap
variable {κ ν : Type} [DecidableEq κ]

theorem get_insert (m : FMap κ ν) (k k' : κ) (v : ν) :
    get (insert m k v) k' = if k = k' then some v else get m k' := by
  induction m with
  | nil => simp [insert, get]
  | cons p m ih =>
    obtain ⟨k0, v0⟩ := p
    by_cases h : k0 = k
    · subst h
      by_cases h2 : k0 = k' <;> simp [insert, get, h2]
    · by_cases h2 : k0 = k'
      · subst h2
        have : ¬ k = k0 := fun e => h e.symm
        simp [insert, get, h, this]
      · simp [insert, get, h, h2, ih]

theorem get_erase (m : FMap κ ν) (k k' : κ) :
    get (erase m k) k' = if k = k' then none else get m k' := by
  induction m with
  | nil => simp [erase, get]
  | cons p m ih =>
    obtain ⟨k0, v0⟩ := p
    by_cases h : k0 = k
    · subst h
      simp only [erase, if_true, ih]
      by_cases h2 : k0 = k' <;> simp [get, h2]
    · by_cases h2 : k0 = k'
      · subst h2
        have : ¬ k = k0 := fun e => h e.symm
        simp [erase, get, h, this]
      · simp [erase, get, h, h2, ih]

theorem keys_insert (m : FMap κ ν) (k : κ) (v : ν) (x : κ) :
    x ∈ (insert m k v).map Prod.fst ↔ x = k ∨ x ∈ m.map Prod.fst := by
  induction m with
  | nil => simp [insert]
  | cons p m ih =>
    obtain ⟨k0, v0⟩ := p
    by_cases h : k0 = k
    · subst h; simp [insert]
    · simp only [insert, if_neg h, List.map_cons, List.mem_cons, ih]
      tauto

theorem keys_erase (m : FMap κ ν) (k x : κ) :
    x ∈ (erase m k).map Prod.fst → x ∈ m.map Prod.fst := by
  induction m with
  | nil => simp [erase]
  | cons p m ih =>
    obtain ⟨k0, v0⟩ := p
    by_cases h : k0 = k
    · simp only [erase, if_pos h, List.map_cons, List.mem_cons]
      intro hx; exact Or.inr (ih hx)
    · simp only [erase, if_neg h, List.map_cons, List.mem_cons]
      rintro (hx | hx)
      · exact Or.inl hx
      · exact Or.inr (ih hx)

theorem Ok.insert {m : FMap κ ν} (h : Ok m) (k : κ) (v : ν) : Ok (insert m k v) := by
  induction m with
  | nil => simp [Ok, FMap.insert]
  | cons p m ih =>
    obtain ⟨k0, v0⟩ := p
    unfold Ok at h ih
    simp only [List.map_cons, List.nodup_cons] at h
    by_cases hk : k0 = k
    · subst hk; simpa [Ok, FMap.insert] using h
    · unfold Ok
      simp only [FMap.insert, if_neg hk, List.map_cons, List.nodup_cons]
      refine ⟨?_, ih h.2⟩
      rw [keys_insert]
      rintro (e | e)
      · exact hk e
      · exact h.1 e

theorem Ok.erase {m : FMap κ ν} (h : Ok m) (k : κ) : Ok (erase m k) := by
  induction m with
  | nil => simp [Ok, FMap.erase]
  | cons p m ih =>
    obtain ⟨k0, v0⟩ := p
    unfold Ok at h ih
    simp only [List.map_cons, List.nodup_cons] at h
    by_cases hk : k0 = k
    · simp only [Ok, FMap.erase, if_pos hk]; exact ih h.2
    · unfold Ok
      simp only [FMap.erase, if_neg hk, List.map_cons, List.nodup_cons]
      exact ⟨fun e => h.1 (keys_erase _ _ _ e), ih h.2⟩

theorem Ok.nil : Ok ([] : FMap κ ν) := by simp [Ok]

theorem get_eq_none_iff (m : FMap κ ν) (k : κ) : get m k = none ↔ k ∉ m.map Prod.fst := by
  induction m with
  | nil => simp [get]
  | cons p m ih =>
    obtain ⟨k0, v0⟩ := p
    by_cases h : k0 = k
    · subst h; simp [get]
    · simp only [get, if_neg h, ih, List.map_cons, List.mem_cons]
      have : ¬ k = k0 := fun e => h e.symm
      tauto

theorem get_some_mem {m : FMap κ ν} {k : κ} {v : ν} (h : get m k = some v) : (k, v) ∈ m := by
  induction m with
  | nil => simp [get] at h
  | cons p m ih =>
    obtain ⟨k0, v0⟩ := p
    by_cases hk : k0 = k
    · subst hk; simp [get] at h; simp [h]
    · simp only [get, if_neg hk] at h
      exact List.mem_cons_of_mem _ (ih h)

theorem mem_iff_get {m : FMap κ ν} (hm : Ok m) (k : κ) (v : ν) : (k, v) ∈ m ↔ get m k = some v := by
  refine ⟨?_, get_some_mem⟩
  induction m with
  | nil => simp
  | cons p m ih =>
    obtain ⟨k0, v0⟩ := p
    unfold Ok at hm ih
    simp only [List.map_cons, List.nodup_cons] at hm
    intro h
    rcases List.mem_cons.1 h with h | h
    · simp only [Prod.mk.injEq] at h
      obtain ⟨rfl, rfl⟩ := h
      simp [get]
    · have : ¬ k0 = k := by
        rintro rfl
        exact hm.1 (List.mem_map.2 ⟨_, h, rfl⟩)
      simp only [get, if_neg this]
      exact ih hm.2 h

theorem mapEq_iff [DecidableEq ν] {m n : FMap κ ν} (hm : Ok m) (hn : Ok n) :
    mapEq m n = true ↔ ∀ k, get m k = get n k := by
  unfold mapEq
  simp only [Bool.and_eq_true, decide_eq_true_eq, List.all_eq_true]
  constructor
  · rintro ⟨hlen, hall⟩ k
    cases hk : get m k with
    | some v => exact (hall _ (get_some_mem hk)).symm
    | none =>
      by_contra hne
      -- all keys of m are keys of n, plus k is a key of n not in m
      have hsub : (k :: m.map Prod.fst).Subperm (n.map Prod.fst) := by
        apply List.Nodup.subperm
        · simp only [List.nodup_cons]
          exact ⟨(get_eq_none_iff m k).1 hk, hm⟩
        · intro x hx
          rcases List.mem_cons.1 hx with rfl | hx
          · by_contra hcon
            exact hne ((get_eq_none_iff n x).2 hcon).symm
          · obtain ⟨p, hp, rfl⟩ := List.mem_map.1 hx
            have := hall p hp
            exact List.mem_map.2 ⟨_, get_some_mem this, rfl⟩
      have := hsub.length_le
      simp at this
      omega
  · intro h
    refine ⟨?_, fun p hp => ?_⟩
    · have h1 : (m.map Prod.fst).Perm (n.map Prod.fst) := by
        rw [List.perm_ext_iff_of_nodup hm hn]
        intro x
        have := h x
        have h1 := get_eq_none_iff m x
        have h2 := get_eq_none_iff n x
        rw [this] at h1
        tauto
      simpa using h1.length_eq
    · rw [← h p.1]
      exact (mem_iff_get hm _ _).1 hp

end Verif.FMap
