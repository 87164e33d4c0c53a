import Verif.Proofs.SType
import Verif.Proofs.FMap
import Verif.Model.Unify
import Verif.Spec.Unify

set_option linter.unusedSimpArgs false
set_option linter.unusedVariables false

namespace Verif
namespace SType
open Spec

/-- Every binding of `m` is a binding of `r`. -/
def Sub (m r : Subst) : Prop := ∀ k t, m.get k = some t → r.get k = some t

/-- The same for the entries of the list. -/
def SubM (m r : Subst) : Prop := ∀ p ∈ m, r.get p.1 = some p.2

theorem SubM.sub {m r : Subst} (h : SubM m r) : Sub m r := fun k t e => h (k, t) (FMap.get_some_mem e)

theorem Sub.trans {a b c : Subst} (h : Sub a b) (h' : Sub b c) : Sub a c := fun k t e => h' k t (h k t e)

theorem sub_nil (r : Subst) : Sub [] r := fun k t e => by simp [FMap.get] at e

theorem get_cons (k : Bytes) (t : SType) (m : Subst) (x : Bytes) :
    FMap.get ((k, t) :: m) x = if k = x then some t else FMap.get m x := rfl

theorem mergeInto_some : ∀ (m res r : Subst), mergeInto res m = some r →
    Sub res r ∧ Sub m r ∧ ∀ k t, r.get k = some t → res.get k = some t ∨ (k, t) ∈ m
  | [], res, r, h => by
    simp only [mergeInto, Option.some.injEq] at h
    subst h
    exact ⟨fun _ _ e => e, sub_nil _, fun k t e => Or.inl e⟩
  | (k, t) :: m, res, r, h => by
    have key : mergeInto (res.insert k t) m = some r ∧ (∀ p, res.get k = some p → p = t) := by
      unfold mergeInto at h
      split at h
      · rename_i prev hp
        split at h
        · rename_i hb
          refine ⟨h, fun p e => ?_⟩
          rw [hp] at e
          simp only [Option.some.injEq] at e
          subst e
          exact (beq_iff _ _).1 hb
        · cases h
      · rename_i hn
        exact ⟨h, fun p e => by rw [hn] at e; cases e⟩
    obtain ⟨h1, h2, h3⟩ := mergeInto_some m _ r key.1
    have hk : r.get k = some t := h1 k t (by rw [FMap.get_insert]; simp)
    refine ⟨?_, ?_, ?_⟩
    · intro x u e
      by_cases hx : k = x
      · subst hx
        rw [key.2 u e]; exact hk
      · exact h1 x u (by rw [FMap.get_insert, if_neg hx]; exact e)
    · intro x u e
      rw [get_cons] at e
      split at e
      · rename_i hx
        simp only [Option.some.injEq] at e
        subst hx e; exact hk
      · exact h2 x u e
    · intro x u e
      rcases h3 x u e with h | h
      · rw [FMap.get_insert] at h
        split at h
        · rename_i hx
          simp only [Option.some.injEq] at h
          subst hx h; exact Or.inr (by simp)
        · exact Or.inl h
      · exact Or.inr (by simp [h])

theorem mergeAll_some : ∀ (l : List Subst) (res r : Subst), mergeAll res l = some r →
    Sub res r ∧ (∀ s ∈ l, Sub s r) ∧ ∀ k t, r.get k = some t → res.get k = some t ∨ ∃ s ∈ l, (k, t) ∈ s
  | [], res, r, h => by
    simp only [mergeAll, Option.some.injEq] at h
    subst h
    exact ⟨fun _ _ e => e, by simp, fun k t e => Or.inl e⟩
  | s :: l, res, r, h => by
    unfold mergeAll at h
    cases hm : mergeInto res s with
    | none => rw [hm] at h; cases h
    | some res' =>
      rw [hm] at h
      obtain ⟨a1, a2, a3⟩ := mergeInto_some s res res' hm
      obtain ⟨b1, b2, b3⟩ := mergeAll_some l res' r h
      refine ⟨a1.trans b1, ?_, ?_⟩
      · intro x hx
        rcases List.mem_cons.1 hx with rfl | hx
        · exact a2.trans b1
        · exact b2 x hx
      · intro k t e
        rcases b3 k t e with h | ⟨x, hx, h⟩
        · rcases a3 k t h with h | h
          · exact Or.inl h
          · exact Or.inr ⟨s, by simp, h⟩
        · exact Or.inr ⟨x, by simp [hx], h⟩

theorem mem_insert {m : Subst} {k : Bytes} {t : SType} {p : Bytes × SType} (h : p ∈ FMap.insert m k t) :
    p = (k, t) ∨ p ∈ m := by
  induction m with
  | nil => simpa [FMap.insert] using h
  | cons q m ih =>
    obtain ⟨k', t'⟩ := q
    unfold FMap.insert at h
    split at h
    · rcases List.mem_cons.1 h with h | h
      · exact Or.inl h
      · exact Or.inr (by simp [h])
    · rcases List.mem_cons.1 h with h | h
      · exact Or.inr (by simp [h])
      · rcases ih h with h | h
        · exact Or.inl h
        · exact Or.inr (by simp [h])

theorem mergeInto_ok {ρ : Subst} : ∀ (m res : Subst), SubM res ρ → SubM m ρ →
    ∃ r, mergeInto res m = some r ∧ SubM r ρ
  | [], res, h, _ => ⟨res, rfl, h⟩
  | (k, t) :: m, res, h, hm => by
    have hk : FMap.get ρ k = some t := hm (k, t) (by simp)
    have hi : SubM (FMap.insert res k t) ρ := by
      intro p hp
      rcases mem_insert hp with rfl | hp
      · exact hk
      · exact h p hp
    obtain ⟨r, e, hr⟩ := mergeInto_ok m (FMap.insert res k t) hi (fun p hp => hm p (by simp [hp]))
    refine ⟨r, ?_, hr⟩
    unfold mergeInto
    cases hg : FMap.get res k with
    | none => exact e
    | some prev =>
      have : prev = t := by
        have := h.sub k prev hg
        rw [hk] at this
        simpa using this.symm
      subst this
      simp only [(beq_iff prev prev).2 rfl, if_true]
      exact e

theorem mergeAll_ok {ρ : Subst} : ∀ (l : List Subst) (res : Subst), SubM res ρ → (∀ s ∈ l, SubM s ρ) →
    ∃ r, mergeAll res l = some r ∧ SubM r ρ
  | [], res, h, _ => ⟨res, rfl, h⟩
  | s :: l, res, h, hl => by
    obtain ⟨r', e, h'⟩ := mergeInto_ok s res h (hl s (by simp))
    obtain ⟨r, e2, h2⟩ := mergeAll_ok l r' h' (fun x hx => hl x (by simp [hx]))
    exact ⟨r, by unfold mergeAll; rw [e]; exact e2, h2⟩

theorem mergeAll_nils : ∀ (n : Nat), mergeAll [] (List.replicate n []) = some []
  | 0 => rfl
  | n + 1 => by rw [List.replicate_succ]; exact mergeAll_nils n

/-! ## Soundness -/

theorem Accepts_refl_aux (l : List SType) (h : ∀ t ∈ l, Accepts t t) : AcceptsAll l l := by
  induction l with
  | nil => simp [AcceptsAll]
  | cons a l ih => exact ⟨h a (by simp), ih (fun t ht => h t (by simp [ht]))⟩

theorem accepts_refl : ∀ t, Accepts t t := by
  intro t
  induction t using induct with
  | hopt e ih => simpa [Accepts] using ih
  | hcoll e ih => simpa [Accepts] using ih
  | htup l ih => simpa [Accepts] using Accepts_refl_aux l ih
  | hfun d r p ih ihr => simpa [Accepts] using ⟨Accepts_refl_aux d ih, ihr⟩
  | _ => simp [Accepts]

theorem withSubsts_eq (s : Subst) (l : List SType) : withSubsts s l = l.map (withSubst s) := by
  induction l with
  | nil => rfl
  | cons a l ih => simp [withSubsts, ih]

theorem prim_case {t1 t2 : SType} {σ : Subst} (h : (if isPrim t1 && isPrim t2 && beq t1 t2 then some [] else none) = some σ) :
    t1 = t2 ∧ σ = [] ∧ isPrim t2 = true := by
  split at h
  · rename_i hc
    simp only [Bool.and_eq_true] at hc
    simp only [Option.some.injEq] at h
    exact ⟨(beq_iff _ _).1 hc.2, h.symm, hc.1.2⟩
  · cases h

mutual
theorem unify_sound : ∀ (t1 t2 : SType) (σ : Subst), unifyOne t1 t2 = some σ → (∀ v ∈ vars t1, v ∉ vars t2) →
    ∀ ρ, Sub σ ρ → Accepts (withSubst ρ t1) t2
  | typeVar a, t2, σ, h, hg, ρ, hs => by
    have e : σ = [(a, t2)] := by
      cases t2 <;> simp [unifyOne, vars] at h hg <;> first | exact h.symm | exact absurd h.1 hg
    have : FMap.get ρ a = some t2 := hs a t2 (by rw [e]; simp [FMap.get])
    rw [withSubst, this]
    exact accepts_refl t2
  | any, t2, σ, h, hg, ρ, hs => by simp [withSubst, Accepts]
  | bool, t2, σ, h, hg, ρ, hs => by
    unfold unifyOne at h
    cases t2 <;> simp at h <;> simp [withSubst, Accepts]
  | unit, t2, σ, h, hg, ρ, hs => by unfold unifyOne at h; obtain ⟨rfl, _, hp⟩ := prim_case h; cases hp
  | byte, t2, σ, h, hg, ρ, hs => by unfold unifyOne at h; obtain ⟨rfl, _, _⟩ := prim_case h; exact accepts_refl _
  | short, t2, σ, h, hg, ρ, hs => by unfold unifyOne at h; obtain ⟨rfl, _, _⟩ := prim_case h; exact accepts_refl _
  | int, t2, σ, h, hg, ρ, hs => by unfold unifyOne at h; obtain ⟨rfl, _, _⟩ := prim_case h; exact accepts_refl _
  | long, t2, σ, h, hg, ρ, hs => by unfold unifyOne at h; obtain ⟨rfl, _, _⟩ := prim_case h; exact accepts_refl _
  | bigInt, t2, σ, h, hg, ρ, hs => by unfold unifyOne at h; obtain ⟨rfl, _, _⟩ := prim_case h; exact accepts_refl _
  | groupElement, t2, σ, h, hg, ρ, hs => by unfold unifyOne at h; obtain ⟨rfl, _, _⟩ := prim_case h; exact accepts_refl _
  | sigmaProp, t2, σ, h, hg, ρ, hs => by unfold unifyOne at h; obtain ⟨rfl, _, _⟩ := prim_case h; exact accepts_refl _
  | box, t2, σ, h, hg, ρ, hs => by unfold unifyOne at h; obtain ⟨rfl, _, _⟩ := prim_case h; exact accepts_refl _
  | avlTree, t2, σ, h, hg, ρ, hs => by unfold unifyOne at h; obtain ⟨rfl, _, _⟩ := prim_case h; exact accepts_refl _
  | context, t2, σ, h, hg, ρ, hs => by unfold unifyOne at h; obtain ⟨rfl, _, _⟩ := prim_case h; exact accepts_refl _
  | header, t2, σ, h, hg, ρ, hs => by unfold unifyOne at h; obtain ⟨rfl, _, _⟩ := prim_case h; exact accepts_refl _
  | preHeader, t2, σ, h, hg, ρ, hs => by unfold unifyOne at h; obtain ⟨rfl, _, _⟩ := prim_case h; exact accepts_refl _
  | global, t2, σ, h, hg, ρ, hs => by unfold unifyOne at h; obtain ⟨rfl, _, _⟩ := prim_case h; exact accepts_refl _
  | option e1, t2, σ, h, hg, ρ, hs => by
    unfold unifyOne at h
    cases t2 <;> simp at h
    rename_i e2
    simpa [withSubst, Accepts] using unify_sound e1 e2 σ h (by simpa [vars] using hg) ρ hs
  | coll e1, t2, σ, h, hg, ρ, hs => by
    unfold unifyOne at h
    cases t2 <;> simp at h
    · rename_i e2
      simpa [withSubst, Accepts] using unify_sound e1 e2 σ h (by simpa [vars] using hg) ρ hs
    · have := unify_sound e1 any σ h (by simp [vars]) ρ hs
      simp only [withSubst, Accepts]
      generalize withSubst ρ e1 = w at this
      cases w <;> simp [Accepts] at this ⊢
  | tuple l1, t2, σ, h, hg, ρ, hs => by
    unfold unifyOne at h
    cases t2 <;> simp at h
    rename_i l2
    obtain ⟨hl, h⟩ := h
    obtain ⟨ss, h1, h2⟩ := Option.bind_eq_some_iff.1 h
    obtain ⟨_, hsub, _⟩ := mergeAll_some ss [] σ h2
    simp only [withSubst, Accepts]
    exact unifyPairs_sound l1 l2 ss h1 hl (by simpa [vars] using hg) ρ (fun s hs' => (hsub s hs').trans hs)
  | func d1 r1 p1, t2, σ, h, hg, ρ, hs => by
    unfold unifyOne at h
    cases t2 <;> simp at h
    rename_i d2 r2 p2
    obtain ⟨hl, h⟩ := h
    obtain ⟨ss, h1, h⟩ := Option.bind_eq_some_iff.1 h
    obtain ⟨s, h2, h3⟩ := Option.bind_eq_some_iff.1 h
    obtain ⟨_, hsub, _⟩ := mergeAll_some _ [] σ h3
    simp only [withSubst, Accepts]
    exact ⟨unifyPairs_sound d1 d2 ss h1 hl (fun v h1 h2 => hg v (by simp [vars, h1]) (by simp [vars, h2])) ρ (fun s hs' => (hsub s (by simp [hs'])).trans hs),
      unify_sound r1 r2 s h2 (fun v h1 h2 => hg v (by simp [vars, h1]) (by simp [vars, h2])) ρ ((hsub s (by simp)).trans hs)⟩
theorem unifyPairs_sound : ∀ (l1 l2 : List SType) (ss : List Subst), unifyPairs l1 l2 = some ss →
    l1.length = l2.length → (∀ v ∈ varsAll l1, v ∉ varsAll l2) → ∀ ρ, (∀ s ∈ ss, Sub s ρ) → AcceptsAll (withSubsts ρ l1) l2
  | [], [], ss, _, _, _, ρ, _ => by simp [withSubsts, AcceptsAll]
  | a :: l, b :: l', ss, h, hl, hg, ρ, hs => by
    rw [unifyPairs] at h
    cases h1 : unifyOne a b with
    | none => rw [h1] at h; cases h
    | some s =>
      cases h2 : unifyPairs l l' with
      | none => rw [h1, h2] at h; cases h
      | some ss' =>
        rw [h1, h2] at h
        simp at h
        subst h
        exact ⟨unify_sound a b s h1 (fun v h1 h2 => hg v (by simp [varsAll, h1]) (by simp [varsAll, h2])) ρ (hs s (by simp)),
          unifyPairs_sound l l' ss' h2 (by simpa using hl) (fun v h1 h2 => hg v (by simp [varsAll, h1]) (by simp [varsAll, h2])) ρ (fun x hx => hs x (by simp [hx]))⟩
  | [], _ :: _, _, _, hl, _, _, _ => by simp at hl
  | _ :: _, [], _, _, hl, _, _, _ => by simp at hl
end

theorem mem_varsAll (v : Bytes) (l : List SType) : v ∈ varsAll l ↔ ∃ t ∈ l, v ∈ vars t := by
  induction l with
  | nil => simp [varsAll]
  | cons a l ih => simp [varsAll, ih]

theorem mem_withSubsts (σ : Subst) (x : SType) (l : List SType) : x ∈ withSubsts σ l ↔ ∃ t ∈ l, withSubst σ t = x := by
  induction l with
  | nil => simp [withSubsts]
  | cons a l ih => simp [withSubsts, ih, eq_comm]

theorem vars_ground : ∀ t, Ground t → ∀ v, v ∉ vars t := by
  intro t
  induction t using induct with
  | hvar n => intro h; exact h.elim
  | hopt e ih => intro h; rw [vars]; exact ih h
  | hcoll e ih => intro h; rw [vars]; exact ih h
  | htup l ih =>
    intro h v hv
    rw [vars, mem_varsAll] at hv
    obtain ⟨t, ht, hv⟩ := hv
    have : ∀ (l : List SType), Grounds l → ∀ t ∈ l, Ground t := by
      intro l
      induction l with
      | nil => simp
      | cons a l ih' => intro h t ht; rcases List.mem_cons.1 ht with rfl | ht; exacts [h.1, ih' h.2 t ht]
    exact ih t ht (this l h t ht) v hv
  | hfun d r p ih ihr =>
    intro h v hv
    rw [vars, List.mem_append, mem_varsAll] at hv
    have : ∀ (l : List SType), Grounds l → ∀ t ∈ l, Ground t := by
      intro l
      induction l with
      | nil => simp
      | cons a l ih' => intro h t ht; rcases List.mem_cons.1 ht with rfl | ht; exacts [h.1, ih' h.2 t ht]
    rcases hv with ⟨t, ht, hv⟩ | hv
    · exact ih t ht (this d h.1 t ht) v hv
    · exact ihr h.2 v hv
  | _ => intro _ v hv; simp [vars] at hv

/-- What is left after a substitution by types without variables. -/
theorem vars_withSubst (σ : Subst) (hg : ∀ v t, σ.get v = some t → Ground t) :
    ∀ t, ∀ v ∈ vars (withSubst σ t), v ∈ vars t ∧ σ.get v = none := by
  intro t
  induction t using induct with
  | hvar n =>
    intro v hv
    rw [withSubst] at hv
    cases e : FMap.get σ n with
    | none =>
      rw [e] at hv
      simp only [Option.getD_none, vars, List.mem_singleton] at hv
      subst hv
      exact ⟨by simp [vars], e⟩
    | some t =>
      rw [e] at hv
      exact absurd hv (vars_ground t (hg n t e) v)
  | hopt e ih => intro v hv; rw [withSubst, vars] at hv; rw [vars]; exact ih v hv
  | hcoll e ih => intro v hv; rw [withSubst, vars] at hv; rw [vars]; exact ih v hv
  | htup l ih =>
    intro v hv
    rw [withSubst, vars, mem_varsAll] at hv
    obtain ⟨x, hx, hv⟩ := hv
    obtain ⟨t, ht, rfl⟩ := (mem_withSubsts σ x l).1 hx
    have := ih t ht v hv
    exact ⟨by rw [vars, mem_varsAll]; exact ⟨t, ht, this.1⟩, this.2⟩
  | hfun d r p ih ihr =>
    intro v hv
    rw [withSubst, vars, List.mem_append, mem_varsAll] at hv
    rcases hv with ⟨x, hx, hv⟩ | hv
    · obtain ⟨t, ht, rfl⟩ := (mem_withSubsts σ x d).1 hx
      have := ih t ht v hv
      exact ⟨by rw [vars, List.mem_append, mem_varsAll]; exact .inl ⟨t, ht, this.1⟩, this.2⟩
    · have := ihr v hv
      exact ⟨by rw [vars, List.mem_append]; exact .inr this.1, this.2⟩
  | _ => intro v hv; simp [withSubst, vars] at hv

/-! ## The law of the doc comment, for ground types without unit -/

theorem unifyPairs_refl (l : List SType) (h : ∀ t ∈ l, unifyOne t t = some []) :
    unifyPairs l l = some (List.replicate l.length []) := by
  induction l with
  | nil => rfl
  | cons a l ih =>
    rw [unifyPairs, h a (by simp), ih (fun t ht => h t (by simp [ht]))]
    rfl

theorem grounds_iff (l : List SType) : Grounds l ↔ ∀ t ∈ l, Ground t := by
  induction l with
  | nil => simp [Grounds]
  | cons a l ih => simp [Grounds, ih]

theorem noUnits_iff (l : List SType) : NoUnits l ↔ ∀ t ∈ l, NoUnit t := by
  induction l with
  | nil => simp [NoUnits]
  | cons a l ih => simp [NoUnits, ih]

theorem unify_refl : ∀ t, NoUnit t → unifyOne t t = some [] := by
  intro t
  induction t using induct with
  | hvar n => intro _; simp [unifyOne]
  | hunit => intro h; exact h.elim
  | hopt e ih => intro h; unfold unifyOne; exact ih h
  | hcoll e ih => intro h; unfold unifyOne; exact ih h
  | htup l ih =>
    intro h
    unfold unifyOne
    simp only [if_true]
    rw [unifyPairs_refl l (fun t ht => ih t ht ((noUnits_iff l).1 h t ht))]
    exact mergeAll_nils _
  | hfun d r p ih ihr =>
    intro h
    unfold unifyOne
    simp only [if_true]
    rw [unifyPairs_refl d (fun t ht => ih t ht ((noUnits_iff d).1 h.1 t ht)), ihr h.2]
    show mergeAll [] (List.replicate d.length [] ++ [[]]) = _
    rw [← List.replicate_succ']
    exact mergeAll_nils _
  | hany => intro _; rfl
  | hbool => intro _; rfl
  | hbyte => intro _; rfl
  | hshort => intro _; rfl
  | hint => intro _; rfl
  | hlong => intro _; rfl
  | hbig => intro _; rfl
  | hge => intro _; rfl
  | hsp => intro _; rfl
  | hbox => intro _; rfl
  | hav => intro _; rfl
  | hctx => intro _; rfl
  | hhead => intro _; rfl
  | hpre => intro _; rfl
  | hglob => intro _; rfl

mutual
/-- A pattern without type variables that accepts a type unifies with it without binding anything. -/
theorem unify_accepts : ∀ (p t : SType), Ground p → NoUnit t → Accepts p t → unifyOne p t = some []
  | typeVar a, t, hg, hu, h => hg.elim
  | any, t, hg, hu, h => by simp [unifyOne]
  | bool, t, hg, hu, h => by
    simp only [Accepts] at h
    rcases h with rfl | rfl <;> rfl
  | unit, t, hg, hu, h => by simp only [Accepts] at h; subst h; exact hu.elim
  | byte, t, hg, hu, h => by simp only [Accepts] at h; subst h; rfl
  | short, t, hg, hu, h => by simp only [Accepts] at h; subst h; rfl
  | int, t, hg, hu, h => by simp only [Accepts] at h; subst h; rfl
  | long, t, hg, hu, h => by simp only [Accepts] at h; subst h; rfl
  | bigInt, t, hg, hu, h => by simp only [Accepts] at h; subst h; rfl
  | groupElement, t, hg, hu, h => by simp only [Accepts] at h; subst h; rfl
  | sigmaProp, t, hg, hu, h => by simp only [Accepts] at h; subst h; rfl
  | box, t, hg, hu, h => by simp only [Accepts] at h; subst h; rfl
  | avlTree, t, hg, hu, h => by simp only [Accepts] at h; subst h; rfl
  | context, t, hg, hu, h => by simp only [Accepts] at h; subst h; rfl
  | header, t, hg, hu, h => by simp only [Accepts] at h; subst h; rfl
  | preHeader, t, hg, hu, h => by simp only [Accepts] at h; subst h; rfl
  | global, t, hg, hu, h => by simp only [Accepts] at h; subst h; rfl
  | option e1, t, hg, hu, h => by
    cases t <;> simp [Accepts] at h
    unfold unifyOne; exact unify_accepts e1 _ hg hu h
  | coll e1, t, hg, hu, h => by
    cases t <;> simp [Accepts] at h
    · unfold unifyOne; exact unify_accepts e1 _ hg hu h
    · subst h; rfl
  | tuple l1, t, hg, hu, h => by
    cases t <;> simp [Accepts] at h
    rename_i l2
    obtain ⟨hl, e⟩ := unifyPairs_accepts l1 l2 hg hu h
    unfold unifyOne
    simp only [if_pos hl]
    rw [e]; exact mergeAll_nils _
  | func d1 r1 p1, t, hg, hu, h => by
    cases t <;> simp [Accepts] at h
    rename_i d2 r2 p2
    obtain ⟨hl, e⟩ := unifyPairs_accepts d1 d2 hg.1 hu.1 h.1
    unfold unifyOne
    simp only [hl, if_true]
    rw [e, unify_accepts r1 r2 hg.2 hu.2 h.2]
    show mergeAll [] (List.replicate d1.length [] ++ [[]]) = _
    rw [← List.replicate_succ']
    exact mergeAll_nils _
theorem unifyPairs_accepts : ∀ (l1 l2 : List SType), Grounds l1 → NoUnits l2 → AcceptsAll l1 l2 →
    l1.length = l2.length ∧ unifyPairs l1 l2 = some (List.replicate l1.length [])
  | [], [], _, _, _ => ⟨rfl, rfl⟩
  | a :: l, b :: l', hg, hu, h => by
    obtain ⟨hl, e⟩ := unifyPairs_accepts l l' hg.2 hu.2 h.2
    refine ⟨by simp [hl], ?_⟩
    rw [unifyPairs, unify_accepts a b hg.1 hu.1 h.1, e]; rfl
  | [], _ :: _, _, _, h => h.elim
  | _ :: _, [], _, _, h => h.elim
end

mutual
/-- After a successful unification with a ground type all variables of the pattern are bound to ground types. -/
theorem withSubst_ground : ∀ (t1 t2 : SType) (σ : Subst), unifyOne t1 t2 = some σ → Ground t2 →
    ∀ ρ, Sub σ ρ → Ground (withSubst ρ t1)
  | typeVar a, t2, σ, h, hg, ρ, hs => by
    have e : σ = [(a, t2)] := by
      cases t2 <;> simp [unifyOne, Ground] at h hg <;> exact h.symm
    have : FMap.get ρ a = some t2 := hs a t2 (by rw [e]; simp [FMap.get])
    rw [withSubst, this]
    exact hg
  | any, t2, σ, h, hg, ρ, hs => by simp [withSubst, Ground]
  | bool, t2, σ, h, hg, ρ, hs => by simp [withSubst, Ground]
  | unit, t2, σ, h, hg, ρ, hs => by simp [withSubst, Ground]
  | byte, t2, σ, h, hg, ρ, hs => by simp [withSubst, Ground]
  | short, t2, σ, h, hg, ρ, hs => by simp [withSubst, Ground]
  | int, t2, σ, h, hg, ρ, hs => by simp [withSubst, Ground]
  | long, t2, σ, h, hg, ρ, hs => by simp [withSubst, Ground]
  | bigInt, t2, σ, h, hg, ρ, hs => by simp [withSubst, Ground]
  | groupElement, t2, σ, h, hg, ρ, hs => by simp [withSubst, Ground]
  | sigmaProp, t2, σ, h, hg, ρ, hs => by simp [withSubst, Ground]
  | box, t2, σ, h, hg, ρ, hs => by simp [withSubst, Ground]
  | avlTree, t2, σ, h, hg, ρ, hs => by simp [withSubst, Ground]
  | context, t2, σ, h, hg, ρ, hs => by simp [withSubst, Ground]
  | header, t2, σ, h, hg, ρ, hs => by simp [withSubst, Ground]
  | preHeader, t2, σ, h, hg, ρ, hs => by simp [withSubst, Ground]
  | global, t2, σ, h, hg, ρ, hs => by simp [withSubst, Ground]
  | option e1, t2, σ, h, hg, ρ, hs => by
    unfold unifyOne at h
    cases t2 <;> simp at h
    rename_i e2
    simpa [withSubst, Ground] using withSubst_ground e1 e2 σ h hg ρ hs
  | coll e1, t2, σ, h, hg, ρ, hs => by
    unfold unifyOne at h
    cases t2 <;> simp at h
    · rename_i e2
      simpa [withSubst, Ground] using withSubst_ground e1 e2 σ h hg ρ hs
    · simpa [withSubst, Ground] using withSubst_ground e1 any σ h (by simp [Ground]) ρ hs
  | tuple l1, t2, σ, h, hg, ρ, hs => by
    unfold unifyOne at h
    cases t2 <;> simp at h
    rename_i l2
    obtain ⟨hl, h⟩ := h
    obtain ⟨ss, h1, h2⟩ := Option.bind_eq_some_iff.1 h
    obtain ⟨_, hsub, _⟩ := mergeAll_some ss [] σ h2
    simp only [withSubst, Ground]
    exact withSubsts_ground l1 l2 ss h1 hl hg ρ (fun s hs' => (hsub s hs').trans hs)
  | func d1 r1 p1, t2, σ, h, hg, ρ, hs => by
    unfold unifyOne at h
    cases t2 <;> simp at h
    rename_i d2 r2 p2
    obtain ⟨hl, h⟩ := h
    obtain ⟨ss, h1, h⟩ := Option.bind_eq_some_iff.1 h
    obtain ⟨s, h2, h3⟩ := Option.bind_eq_some_iff.1 h
    obtain ⟨_, hsub, _⟩ := mergeAll_some _ [] σ h3
    simp only [withSubst, Ground]
    exact ⟨withSubsts_ground d1 d2 ss h1 hl hg.1 ρ (fun s hs' => (hsub s (by simp [hs'])).trans hs),
      withSubst_ground r1 r2 s h2 hg.2 ρ ((hsub s (by simp)).trans hs)⟩
theorem withSubsts_ground : ∀ (l1 l2 : List SType) (ss : List Subst), unifyPairs l1 l2 = some ss →
    l1.length = l2.length → Grounds l2 → ∀ ρ, (∀ s ∈ ss, Sub s ρ) → Grounds (withSubsts ρ l1)
  | [], [], ss, _, _, _, ρ, _ => by simp [withSubsts, Grounds]
  | a :: l, b :: l', ss, h, hl, hg, ρ, hs => by
    rw [unifyPairs] at h
    cases h1 : unifyOne a b with
    | none => rw [h1] at h; cases h
    | some s =>
      cases h2 : unifyPairs l l' with
      | none => rw [h1, h2] at h; cases h
      | some ss' =>
        rw [h1, h2] at h
        simp at h
        subst h
        exact ⟨withSubst_ground a b s h1 hg.1 ρ (hs s (by simp)),
          withSubsts_ground l l' ss' h2 (by simpa using hl) hg.2 ρ (fun x hx => hs x (by simp [hx]))⟩
  | [], _ :: _, _, _, hl, _, _, _ => by simp at hl
  | _ :: _, [], _, _, hl, _, _, _ => by simp at hl
end

/-! ## Completeness -/

mutual
theorem unify_complete (ρ : Subst) : ∀ (t1 t2 : SType), withSubst ρ t1 = t2 → Ground t2 → NoUnit t2 →
    ∃ σ, unifyOne t1 t2 = some σ ∧ SubM σ ρ
  | typeVar a, t2, h, hg, hu => by
    rw [withSubst] at h
    cases hr : FMap.get ρ a with
    | none => rw [hr] at h; subst h; exact hg.elim
    | some t =>
      rw [hr] at h
      simp at h; subst h
      refine ⟨[(a, t)], ?_, fun p hp => by simp at hp; subst hp; exact hr⟩
      cases t <;> first | rfl | exact hg.elim
  | unit, t2, h, hg, hu => by subst h; exact hu.elim
  | any, t2, h, hg, hu => by subst h; exact ⟨[], rfl, fun p hp => by cases hp⟩
  | bool, t2, h, hg, hu => by subst h; exact ⟨[], rfl, fun p hp => by cases hp⟩
  | byte, t2, h, hg, hu => by subst h; exact ⟨[], rfl, fun p hp => by cases hp⟩
  | short, t2, h, hg, hu => by subst h; exact ⟨[], rfl, fun p hp => by cases hp⟩
  | int, t2, h, hg, hu => by subst h; exact ⟨[], rfl, fun p hp => by cases hp⟩
  | long, t2, h, hg, hu => by subst h; exact ⟨[], rfl, fun p hp => by cases hp⟩
  | bigInt, t2, h, hg, hu => by subst h; exact ⟨[], rfl, fun p hp => by cases hp⟩
  | groupElement, t2, h, hg, hu => by subst h; exact ⟨[], rfl, fun p hp => by cases hp⟩
  | sigmaProp, t2, h, hg, hu => by subst h; exact ⟨[], rfl, fun p hp => by cases hp⟩
  | box, t2, h, hg, hu => by subst h; exact ⟨[], rfl, fun p hp => by cases hp⟩
  | avlTree, t2, h, hg, hu => by subst h; exact ⟨[], rfl, fun p hp => by cases hp⟩
  | context, t2, h, hg, hu => by subst h; exact ⟨[], rfl, fun p hp => by cases hp⟩
  | header, t2, h, hg, hu => by subst h; exact ⟨[], rfl, fun p hp => by cases hp⟩
  | preHeader, t2, h, hg, hu => by subst h; exact ⟨[], rfl, fun p hp => by cases hp⟩
  | global, t2, h, hg, hu => by subst h; exact ⟨[], rfl, fun p hp => by cases hp⟩
  | option e1, t2, h, hg, hu => by
    subst h
    obtain ⟨σ, e, hs⟩ := unify_complete ρ e1 _ rfl hg hu
    exact ⟨σ, by rw [withSubst]; unfold unifyOne; exact e, hs⟩
  | coll e1, t2, h, hg, hu => by
    subst h
    obtain ⟨σ, e, hs⟩ := unify_complete ρ e1 _ rfl hg hu
    exact ⟨σ, by rw [withSubst]; unfold unifyOne; exact e, hs⟩
  | tuple l1, t2, h, hg, hu => by
    subst h
    obtain ⟨ss, e, hs⟩ := unifyPairs_complete ρ l1 hg hu
    obtain ⟨r, e2, hr⟩ := mergeAll_ok ss [] (fun p hp => by cases hp) hs
    refine ⟨r, ?_, hr⟩
    rw [withSubst]; unfold unifyOne
    have hl : l1.length = (withSubsts ρ l1).length := by rw [withSubsts_eq]; simp
    simp only [if_pos hl]
    rw [e]; exact e2
  | func d1 r1 p1, t2, h, hg, hu => by
    subst h
    obtain ⟨ss, e, hs⟩ := unifyPairs_complete ρ d1 hg.1 hu.1
    obtain ⟨σ, e', hs'⟩ := unify_complete ρ r1 _ rfl hg.2 hu.2
    obtain ⟨r, e2, hr⟩ := mergeAll_ok (ss ++ [σ]) [] (fun p hp => by cases hp) (by
      intro s hm
      rcases List.mem_append.1 hm with hm | hm
      · exact hs s hm
      · simp at hm; subst hm; exact hs')
    refine ⟨r, ?_, hr⟩
    rw [withSubst]; unfold unifyOne
    have hl : d1.length = (withSubsts ρ d1).length := by rw [withSubsts_eq]; simp
    simp only [← hl, if_true]
    rw [e, e']; exact e2
theorem unifyPairs_complete (ρ : Subst) : ∀ (l1 : List SType), Grounds (withSubsts ρ l1) →
    NoUnits (withSubsts ρ l1) → ∃ ss, unifyPairs l1 (withSubsts ρ l1) = some ss ∧ ∀ s ∈ ss, SubM s ρ
  | [], _, _ => ⟨[], rfl, fun s hs => by cases hs⟩
  | a :: l, hg, hu => by
    obtain ⟨σ, e, hs⟩ := unify_complete ρ a _ rfl hg.1 hu.1
    obtain ⟨ss, e', hs'⟩ := unifyPairs_complete ρ l hg.2 hu.2
    refine ⟨σ :: ss, by rw [withSubsts, unifyPairs, e, e']; rfl, ?_⟩
    intro s hm
    rcases List.mem_cons.1 hm with rfl | hm
    · exact hs
    · exact hs' s hm
end

end SType
end Verif
