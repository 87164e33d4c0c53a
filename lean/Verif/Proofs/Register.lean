import Verif.Proofs.Box
import Mathlib.Data.List.Nodup

set_option linter.unusedSimpArgs false
set_option linter.unusedVariables false

/-!
# Registers from maps, register ids
-/

namespace Verif
open Spec

namespace Regs
variable {G B T : Type}

/-- The registers before `r`. -/
def below (r : NmId) : List NmId := NmId.regIds.take (r.toNat - 4)

theorem mem_take_iff (n : Nat) (r : NmId) : r ∈ NmId.regIds.take n ↔ r.toNat - 4 < n := by
  rcases n with _ | _ | _ | _ | _ | _ | n <;> cases r <;> simp [NmId.regIds, NmId.toNat]

theorem regIds_nodup (n : Nat) : (NmId.regIds.take n).Nodup :=
  List.Sublist.nodup (List.take_sublist _ _) (by decide)

theorem toNat_ge (r : NmId) : 4 ≤ r.toNat ∧ r.toNat ≤ 9 := by cases r <;> decide

theorem regIds_get (r : NmId) : NmId.regIds[r.toNat - 4]? = some r := by cases r <;> rfl

theorem toNat_inj {r r' : NmId} (h : r.toNat = r'.toNat) : r = r' := by cases r <;> cases r' <;> simp_all [NmId.toNat]

theorem collect_some_iff (m : FMap NmId (RegVal G B)) : ∀ (l : List NmId) (rs : Regs G B),
    collect m l = some rs ↔ l.map m.get = rs.map some
  | [], rs => by
    rw [collect]
    cases rs <;> simp
  | r :: l, rs => by
    rw [collect]
    simp only [Option.bind_eq_bind, Option.bind_eq_some_iff]
    constructor
    · rintro ⟨v, h1, rs', h2, h3⟩
      simp only [Option.pure_def, Option.some.injEq] at h3
      subst h3
      have := (collect_some_iff m l rs').1 h2
      simp [h1, this]
    · intro h
      cases rs with
      | nil => simp at h
      | cons v rs =>
        simp only [List.map_cons, List.cons.injEq] at h
        exact ⟨v, h.1, rs, (collect_some_iff m l rs).2 h.2, rfl⟩

theorem collect_isSome (m : FMap NmId (RegVal G B)) : ∀ l : List NmId,
    (collect m l).isSome ↔ ∀ r ∈ l, (m.get r).isSome
  | [] => by simp [collect]
  | r :: l => by
    have ih := collect_isSome m l
    rw [collect]
    cases h : m.get r with
    | none => simp [h]
    | some v =>
      cases h2 : collect m l with
      | none =>
        rw [h2] at ih
        simp only [Option.isSome_none, Bool.false_eq_true, false_iff] at ih
        simp only [List.mem_cons, forall_eq_or_imp, h, Option.isSome_some, true_and]
        constructor
        · intro h'; simp [h2] at h'
        · intro h'; exact absurd h' ih
      | some rs =>
        rw [h2] at ih
        simp only [Option.isSome_some, true_iff] at ih
        simp only [List.mem_cons, forall_eq_or_imp, h, Option.isSome_some, true_and]
        constructor
        · intro _; exact ih
        · intro _; rfl

theorem mem_keys_iff (m : FMap NmId (RegVal G B)) (r : NmId) : (m.get r).isSome ↔ r ∈ m.map Prod.fst := by
  have := FMap.get_eq_none_iff m r
  cases h : m.get r with
  | none => simp [this.1 h]
  | some v =>
    simp only [Option.isSome_some, true_iff]
    by_contra hc
    rw [this.2 hc] at h
    cases h

theorem length_le_six (m : FMap NmId (RegVal G B)) (hm : m.Ok) : m.length ≤ 6 := by
  have h : (m.map Prod.fst).Subperm NmId.regIds := List.subperm_of_subset hm (fun r _ => by cases r <;> decide)
  have := h.length_le
  simpa [NmId.regIds] using this

theorem ofMap_isSome (m : FMap NmId (RegVal G B)) (hm : m.Ok) :
    (ofMap m).isSome ↔ ∀ r r' : NmId, r.toNat < r'.toNat → (m.get r').isSome → (m.get r).isSome := by
  have h6 := length_le_six m hm
  unfold ofMap
  rw [if_neg (by simp [maxSize, NmId.numRegs]; omega), collect_isSome]
  have hlen : (NmId.regIds.take m.length).length = m.length := by simp [NmId.regIds]; omega
  constructor
  · intro h r r' hlt hr'
    have hsub : NmId.regIds.take m.length ⊆ m.map Prod.fst := fun x hx => (mem_keys_iff m x).1 (h x hx)
    have hperm : (NmId.regIds.take m.length).Perm (m.map Prod.fst) :=
      (List.subperm_of_subset (regIds_nodup _) hsub).perm_of_length_le (by simp [hlen])
    have h1 := (mem_take_iff m.length r').1 (hperm.mem_iff.2 ((mem_keys_iff m r').1 hr'))
    have h2 := toNat_ge r
    exact h r ((mem_take_iff _ _).2 (by omega))
  · intro h r hr
    by_contra hc
    have hsub : m.map Prod.fst ⊆ NmId.regIds.take (r.toNat - 4) := by
      intro x hx
      rw [mem_take_iff]
      by_contra hge
      have hx' := (mem_keys_iff m x).2 hx
      rcases Nat.lt_trichotomy r.toNat x.toNat with hl | he | hg
      · exact hc (h r x hl hx')
      · rw [toNat_inj he] at hc; exact hc hx'
      · have := toNat_ge x
        omega
    have h1 := (List.subperm_of_subset hm hsub).length_le
    have h2 := (mem_take_iff _ _).1 hr
    simp only [List.length_map, List.length_take] at h1
    omega

theorem ofMap_spec {m : FMap NmId (RegVal G B)} (hm : m.Ok) {rs : Regs G B} (h : ofMap m = some rs) :
    rs.length = m.length ∧ ∀ r : NmId, rs[r.toNat - 4]? = m.get r := by
  have h6 := length_le_six m hm
  have hs := (ofMap_isSome m hm).1 (by rw [h]; rfl)
  unfold ofMap at h
  rw [if_neg (by simp [maxSize, NmId.numRegs]; omega), collect_some_iff] at h
  have hl : rs.length = m.length := by
    have := congrArg List.length h
    simp only [List.length_map, List.length_take, NmId.regIds, List.length_cons, List.length_nil] at this
    omega
  refine ⟨hl, fun r => ?_⟩
  have e := congrArg (fun l => l[r.toNat - 4]?) h
  simp only [List.getElem?_map] at e
  by_cases hr : r.toNat - 4 < m.length
  · rw [List.getElem?_take_of_lt hr, regIds_get] at e
    simp only [Option.map_some] at e
    cases e' : rs[r.toNat - 4]? with
    | none => rw [e'] at e; simp at e
    | some v => rw [e'] at e; simp only [Option.map_some, Option.some.injEq] at e; exact e.symm
  · rw [List.getElem?_eq_none (by omega)]
    by_contra hc
    have hsome : (m.get r).isSome := by
      cases e' : m.get r with
      | none => exact absurd e'.symm hc
      | some v => rfl
    have hsub : NmId.regIds.take (m.length + 1) ⊆ m.map Prod.fst := by
      intro x hx
      rw [← mem_keys_iff]
      have hx' := (mem_take_iff _ _).1 hx
      rcases Nat.lt_trichotomy x.toNat r.toNat with hl | he | hg
      · exact hs x r hl hsome
      · rw [toNat_inj he]; exact hsome
      · have := toNat_ge r
        omega
    have h1 := (List.subperm_of_subset (regIds_nodup _) hsub).length_le
    have := toNat_ge r
    simp only [List.length_map, List.length_take, NmId.regIds, List.length_cons, List.length_nil] at h1
    omega

theorem toMap_get (rs : Regs G B) (r : NmId) : (toMap rs).get r = rs[r.toNat - 4]? := by
  unfold toMap NmId.regIds
  rcases rs with _ | ⟨a, _ | ⟨b, _ | ⟨c, _ | ⟨d, _ | ⟨e, _ | ⟨f, l⟩⟩⟩⟩⟩⟩ <;> cases r <;>
    simp [FMap.get, NmId.toNat]

theorem toMap_ok (rs : Regs G B) : (toMap rs).Ok := by
  unfold toMap FMap.Ok
  unfold NmId.regIds
  rcases rs with _ | ⟨a, _ | ⟨b, _ | ⟨c, _ | ⟨d, _ | ⟨e, _ | ⟨f, l⟩⟩⟩⟩⟩⟩ <;> simp

theorem ofMap_toMap (rs : Regs G B) (h : rs.length ≤ 6) : ofMap (toMap rs) = some rs := by
  have hs : (ofMap (toMap rs)).isSome := by
    rw [ofMap_isSome _ (toMap_ok rs)]
    intro r r' hlt h'
    rw [toMap_get] at h' ⊢
    have := toNat_ge r
    simp only [Option.isSome_iff_ne_none, ne_eq, List.getElem?_eq_none_iff] at h' ⊢
    omega
  obtain ⟨rs', e⟩ := Option.isSome_iff_exists.1 hs
  obtain ⟨h1, h2⟩ := ofMap_spec (toMap_ok rs) e
  rw [e]
  congr 1
  have hl : rs'.length = rs.length := by
    rw [h1]; unfold toMap; simp [NmId.regIds]; omega
  apply List.ext_getElem?
  intro i
  by_cases hi : i < 6
  · have := h2 (NmId.regIds[i]'(by simpa [NmId.regIds] using hi))
    rw [toMap_get] at this
    have e4 : (NmId.regIds[i]'(by simpa [NmId.regIds] using hi)).toNat - 4 = i := by
      rcases i with _ | _ | _ | _ | _ | _ | i <;> first | rfl | omega
    rw [e4] at this
    exact this
  · rw [List.getElem?_eq_none (by omega), List.getElem?_eq_none (by omega)]

end Regs

/-! ## Ids -/

theorem NmId.ofI8_iff (v : BitVec 8) (r : NmId) : ofI8 v = .ok r ↔ v.toInt = (r.toNat : Int) := by
  revert v
  cases r <;> decide +kernel

theorem NmId.ofStr_toStr (r : NmId) : ofStr r.toStr = .ok r := by cases r <;> decide

theorem NmId.toStr_ofStr {s : List Char} {r : NmId} (h : ofStr s = .ok r) : s = r.toStr := by
  unfold ofStr at h
  split at h
  · rename_i d
    split at h
    · rename_i hd
      simp only [] at h
      split at h
      · rename_i hi
        obtain ⟨h1, h2⟩ := hi
        simp only [startIndex, endIndex] at h1 h2
        have key : ∀ k, d.toNat = k → d = Char.ofNat k := by
          intro k hk; rw [← hk, Char.ofNat_toNat]
        have hc : d.toNat = 52 ∨ d.toNat = 53 ∨ d.toNat = 54 ∨ d.toNat = 55 ∨ d.toNat = 56 ∨ d.toNat = 57 := by omega
        rcases hc with hc | hc | hc | hc | hc | hc <;>
        · rw [hc] at h
          have hr : r = r := rfl
          have hd' := key _ hc
          cases r <;> first
            | (subst hd'; rfl)
            | exact absurd h (by decide)
      · cases h
    · cases h
  · split at h <;> cases h
  · cases h

end Verif
