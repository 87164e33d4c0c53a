import Verif.Proofs.FixVlq
import Verif.Proofs.VlqGet
import Verif.Spec.SigmaBoolean

set_option linter.unusedSimpArgs false
set_option linter.unusedVariables false

namespace Verif
namespace SigmaBoolean
open Spec

/-- Induction over propositions with membership hypotheses for children. -/
theorem induct {G : Type} {P : SigmaBoolean G → Prop} (htriv : ∀ b, P (trivial b)) (hdlog : ∀ h, P (dlog h))
    (hdht : ∀ g h u v, P (dht g h u v)) (hcand : ∀ l, (∀ c ∈ l, P c) → P (cand l))
    (hcor : ∀ l, (∀ c ∈ l, P c) → P (cor l)) (hcth : ∀ k l, (∀ c ∈ l, P c) → P (cth k l)) : ∀ t, P t :=
  fun t => SigmaBoolean.rec (motive_1 := P) (motive_2 := fun l => ∀ c ∈ l, P c) htriv hdlog hdht
    (fun l ih => hcand l ih) (fun l ih => hcor l ih) (fun k l ih => hcth k l ih)
    (fun c hc => by cases hc)
    (fun a l ha hl c hc => by
      rcases List.mem_cons.1 hc with rfl | h
      · exact ha
      · exact hl c h) t

theorem boundedList_iff {G : Type} (l : List (SigmaBoolean G)) : BoundedList l ↔ ∀ c ∈ l, Bounded c := by
  induction l with
  | nil => simp [BoundedList]
  | cons a l ih => simp [BoundedList, ih]

theorem serList_eq {G : Type} [DecidableEq G] (pc : PointCodec G) (l : List (SigmaBoolean G)) :
    serList pc l = l.flatMap (ser pc) := by
  induction l with
  | nil => rfl
  | cons a l ih => simp [serList, ih]

theorem beqList_iff {G : Type} [DecidableEq G] (l : List (SigmaBoolean G))
    (h : ∀ c ∈ l, ∀ b, beq c b = true ↔ c = b) : ∀ l', beqList l l' = true ↔ l = l' := by
  induction l with
  | nil => intro l'; cases l' <;> simp [beqList]
  | cons a l ih =>
    intro l'
    cases l' with
    | nil => simp [beqList]
    | cons b l' =>
      simp only [beqList, Bool.and_eq_true, List.cons.injEq]
      rw [h a (by simp), ih (fun c hc => h c (by simp [hc]))]

theorem beq_iff {G : Type} [DecidableEq G] : ∀ a b : SigmaBoolean G, beq a b = true ↔ a = b := by
  intro a
  induction a using induct with
  | htriv b => intro c; cases c <;> simp [beq]
  | hdlog h => intro c; cases c <;> simp [beq]
  | hdht g h u v => intro c; cases c <;> simp [beq, and_assoc]
  | hcand l ih => intro c; cases c <;> simp [beq, beqList_iff l ih]
  | hcor l ih => intro c; cases c <;> simp [beq, beqList_iff l ih]
  | hcth k l ih => intro c; cases c <;> simp [beq, beqList_iff l ih]

instance {G : Type} [DecidableEq G] : DecidableEq (SigmaBoolean G) := fun a b =>
  if h : beq a b = true then isTrue ((beq_iff a b).1 h) else isFalse (fun e => h ((beq_iff a b).2 e))

theorem nonExp_parseItems {G : Type} {p : Parser (SigmaBoolean G)} (hp : NonExp p) : NonExp (parseItems p) :=
  NonExp.bind NonExp.getU16 (fun _ => NonExp.bind (NonExp.replicateP hp _)
    (fun _ => NonExp.ite (NonExp.pure _) NonExp.fail))

theorem agree_parseItems {G : Type} {n : Nat} {p q : Parser (SigmaBoolean G)} (hp : NonExp p)
    (h : AgreeLt n p q) : AgreeLt n (parseItems p) (parseItems q) :=
  AgreeLt.bind NonExp.getU16 AgreeLt.rfl (fun _ => AgreeLt.bind (NonExp.replicateP hp _)
    (AgreeLt.replicateP hp h _) (fun _ => AgreeLt.rfl))

theorem productive_parseBody {G : Type} (pc : PointCodec G) : Productive (parseBody pc) where
  nonExp p hp := by
    refine NonExp.bind NonExp.getU8 (fun op => ?_)
    refine NonExp.ite ?_ (NonExp.ite ?_ (NonExp.ite ?_ (NonExp.ite ?_ (NonExp.ite ?_ (NonExp.ite ?_ (NonExp.ite ?_ ?_))))))
    · exact NonExp.bind (NonExp.getPoint pc) (fun _ => NonExp.pure _)
    · exact NonExp.bind (NonExp.getPoint pc) (fun _ => NonExp.bind (NonExp.getPoint pc) (fun _ =>
        NonExp.bind (NonExp.getPoint pc) (fun _ => NonExp.bind (NonExp.getPoint pc) (fun _ => NonExp.pure _))))
    · exact NonExp.bind (nonExp_parseItems hp) (fun _ => NonExp.pure _)
    · exact NonExp.bind (nonExp_parseItems hp) (fun _ => NonExp.pure _)
    · exact NonExp.bind NonExp.getU16 (fun _ => NonExp.bind (nonExp_parseItems hp) (fun _ => NonExp.pure _))
    · exact NonExp.pure _
    · exact NonExp.pure _
    · exact NonExp.fail
  step p q s hp hq h := by
    refine getU8_bind_agree s (fun op => ?_)
    refine AgreeLt.ite AgreeLt.rfl (AgreeLt.ite AgreeLt.rfl (AgreeLt.ite ?_ (AgreeLt.ite ?_ (AgreeLt.ite ?_ AgreeLt.rfl))))
    · exact AgreeLt.bind (nonExp_parseItems hp) (agree_parseItems hp h) (fun _ => AgreeLt.rfl)
    · exact AgreeLt.bind (nonExp_parseItems hp) (agree_parseItems hp h) (fun _ => AgreeLt.rfl)
    · exact AgreeLt.bind NonExp.getU16 AgreeLt.rfl (fun _ =>
        AgreeLt.bind (nonExp_parseItems hp) (agree_parseItems hp h) (fun _ => AgreeLt.rfl))

theorem parse_eq {G : Type} (pc : PointCodec G) : parse pc = parseBody pc (parse pc) :=
  fixP_eq (productive_parseBody pc)

theorem parseItems_ser {G : Type} [DecidableEq G] (pc : PointCodec G) (p : Parser (SigmaBoolean G))
    (l : List (SigmaBoolean G)) (h2 : 2 ≤ l.length) (h255 : l.length ≤ 255)
    (ih : ∀ c ∈ l, ∀ rest, p (ser pc c ++ rest) = some (c, rest)) (rest : Bytes) :
    parseItems p (putU16 (BitVec.ofNat 16 l.length) ++ (serList pc l ++ rest)) = some (l, rest) := by
  unfold parseItems
  rw [Parser.bind_some (getU16_put _ _)]
  have e : (BitVec.ofNat 16 l.length).toNat = l.length := by
    simp only [BitVec.toNat_ofNat]; omega
  rw [e, serList_eq]
  rw [Parser.bind_some (replicateP_roundTrips (P := fun c => c ∈ l) (fun a ha rest => ih a ha rest) l
    (fun a ha => ha) rest)]
  simp [h2, h255]

theorem parse_ser {G : Type} [DecidableEq G] (pc : PointCodec G) : ∀ (t : SigmaBoolean G), Bounded t →
    ∀ rest, parse pc (ser pc t ++ rest) = some (t, rest) := by
  intro t
  induction t using induct with
  | htriv b => intro _ rest; rw [parse_eq]; cases b <;> rfl
  | hdlog h =>
    intro _ rest; rw [parse_eq]
    show (getPoint pc >>= fun h => pure (dlog h)) (putPoint pc h ++ rest) = _
    rw [Parser.bind_some (getPoint_putPoint pc h rest)]; rfl
  | hdht g h u v =>
    intro _ rest; rw [parse_eq]
    show (getPoint pc >>= fun g => getPoint pc >>= fun h => getPoint pc >>= fun u => getPoint pc >>= fun v =>
      pure (dht g h u v)) ((putPoint pc g ++ putPoint pc h ++ putPoint pc u ++ putPoint pc v) ++ rest) = _
    simp only [List.append_assoc]
    rw [Parser.bind_some (getPoint_putPoint pc g _), Parser.bind_some (getPoint_putPoint pc h _),
      Parser.bind_some (getPoint_putPoint pc u _), Parser.bind_some (getPoint_putPoint pc v _)]; rfl
  | hcand l ih =>
    intro hb rest; rw [parse_eq]
    simp only [Bounded, boundedList_iff] at hb
    show (parseItems (parse pc) >>= fun items => pure (cand items))
      ((putU16 (BitVec.ofNat 16 l.length) ++ serList pc l) ++ rest) = _
    rw [List.append_assoc, Parser.bind_some (parseItems_ser pc _ l hb.1 hb.2.1
      (fun c hc => ih c hc (hb.2.2 c hc)) rest)]; rfl
  | hcor l ih =>
    intro hb rest; rw [parse_eq]
    simp only [Bounded, boundedList_iff] at hb
    show (parseItems (parse pc) >>= fun items => pure (cor items))
      ((putU16 (BitVec.ofNat 16 l.length) ++ serList pc l) ++ rest) = _
    rw [List.append_assoc, Parser.bind_some (parseItems_ser pc _ l hb.1 hb.2.1
      (fun c hc => ih c hc (hb.2.2 c hc)) rest)]; rfl
  | hcth k l ih =>
    intro hb rest; rw [parse_eq]
    simp only [Bounded, boundedList_iff] at hb
    show (getU16 >>= fun k => parseItems (parse pc) >>= fun items => pure (cth (k.setWidth 8) items))
      ((putU16 (k.setWidth 16) ++ putU16 (BitVec.ofNat 16 l.length) ++ serList pc l) ++ rest) = _
    simp only [List.append_assoc]
    rw [Parser.bind_some (getU16_put _ _), Parser.bind_some (parseItems_ser pc _ l hb.1 hb.2.1
      (fun c hc => ih c hc (hb.2.2 c hc)) rest)]
    simp

/-! ### Everything read satisfies the size bounds -/

theorem replicateP_forall {α : Type} {p : Parser α} {P : α → Prop} (h : ∀ s a r, p s = some (a, r) → P a) :
    ∀ n s l r, replicateP n p s = some (l, r) → ∀ a ∈ l, P a := by
  intro n
  induction n with
  | zero =>
    intro s l r e a ha
    simp only [replicateP, Parser.pure_run, Option.some.injEq, Prod.mk.injEq] at e
    rw [← e.1] at ha; cases ha
  | succ n ih =>
    intro s l r e a ha
    simp only [replicateP] at e
    obtain ⟨x, s1, h1, e⟩ := Parser.bind_eq_some.1 e
    obtain ⟨xs, s2, h2, e⟩ := Parser.bind_eq_some.1 e
    simp only [Parser.pure_run, Option.some.injEq, Prod.mk.injEq] at e
    rw [← e.1] at ha
    rcases List.mem_cons.1 ha with rfl | ha
    · exact h _ _ _ h1
    · exact ih _ _ _ h2 a ha

theorem parseItems_bounded {G : Type} {p : Parser (SigmaBoolean G)} (h : ∀ s a r, p s = some (a, r) → Bounded a)
    {s : Bytes} {l : List (SigmaBoolean G)} {r : Bytes} (e : parseItems p s = some (l, r)) :
    2 ≤ l.length ∧ l.length ≤ 255 ∧ BoundedList l := by
  unfold parseItems at e
  obtain ⟨n, s1, _, e⟩ := Parser.bind_eq_some.1 e
  obtain ⟨items, s2, h2, e⟩ := Parser.bind_eq_some.1 e
  split at e
  · rename_i hb
    simp only [Parser.pure_run, Option.some.injEq, Prod.mk.injEq] at e
    rw [← e.1]
    exact ⟨hb.1, hb.2, (boundedList_iff _).2 (replicateP_forall h _ _ _ _ h2)⟩
  · cases e

theorem parseBody_bounded {G : Type} (pc : PointCodec G) {p : Parser (SigmaBoolean G)}
    (h : ∀ s a r, p s = some (a, r) → Bounded a) : ∀ s a r, parseBody pc p s = some (a, r) → Bounded a := by
  intro s a r e
  unfold parseBody at e
  obtain ⟨op, s1, _, e⟩ := Parser.bind_eq_some.1 e
  split at e
  · obtain ⟨x, s2, _, e⟩ := Parser.bind_eq_some.1 e
    simp only [Parser.pure_run, Option.some.injEq, Prod.mk.injEq] at e
    rw [← e.1]; simp [Bounded]
  split at e
  · obtain ⟨_, s2, _, e⟩ := Parser.bind_eq_some.1 e
    obtain ⟨_, s3, _, e⟩ := Parser.bind_eq_some.1 e
    obtain ⟨_, s4, _, e⟩ := Parser.bind_eq_some.1 e
    obtain ⟨_, s5, _, e⟩ := Parser.bind_eq_some.1 e
    simp only [Parser.pure_run, Option.some.injEq, Prod.mk.injEq] at e
    rw [← e.1]; simp [Bounded]
  split at e
  · obtain ⟨l, s2, h2, e⟩ := Parser.bind_eq_some.1 e
    simp only [Parser.pure_run, Option.some.injEq, Prod.mk.injEq] at e
    rw [← e.1]; simpa only [Bounded] using parseItems_bounded h h2
  split at e
  · obtain ⟨l, s2, h2, e⟩ := Parser.bind_eq_some.1 e
    simp only [Parser.pure_run, Option.some.injEq, Prod.mk.injEq] at e
    rw [← e.1]; simpa only [Bounded] using parseItems_bounded h h2
  split at e
  · obtain ⟨k, s2, _, e⟩ := Parser.bind_eq_some.1 e
    obtain ⟨l, s3, h2, e⟩ := Parser.bind_eq_some.1 e
    simp only [Parser.pure_run, Option.some.injEq, Prod.mk.injEq] at e
    rw [← e.1]; simpa only [Bounded] using parseItems_bounded h h2
  split at e
  · simp only [Parser.pure_run, Option.some.injEq, Prod.mk.injEq] at e
    rw [← e.1]; simp [Bounded]
  split at e
  · simp only [Parser.pure_run, Option.some.injEq, Prod.mk.injEq] at e
    rw [← e.1]; simp [Bounded]
  · cases e

theorem parse_bounded {G : Type} (pc : PointCodec G) (s : Bytes) (a : SigmaBoolean G) (r : Bytes)
    (e : parse pc s = some (a, r)) : Bounded a := by
  unfold parse fixP at e
  have : ∀ n s a r, fixFuel (parseBody pc) n s = some (a, r) → Bounded a := by
    intro n
    induction n with
    | zero => intro s a r e; cases e
    | succ n ih => exact parseBody_bounded pc ih
  exact this _ _ _ _ e

/-! ### Normalization -/

theorem holdsCount_append {G : Type} (σ : Assignment G) (l l' : List (SigmaBoolean G)) :
    holdsCount σ (l ++ l') = holdsCount σ l + holdsCount σ l' := by
  induction l with
  | nil => simp [holdsCount]
  | cons a l ih => simp only [List.cons_append, holdsCount, ih]; omega

theorem holdsCount_le {G : Type} (σ : Assignment G) (l : List (SigmaBoolean G)) : holdsCount σ l ≤ l.length := by
  induction l with
  | nil => simp [holdsCount]
  | cons a l ih => simp only [holdsCount, List.length_cons]; split <;> omega

theorem holdsCount_countP {G : Type} (σ : Assignment G) (l : List (SigmaBoolean G)) :
    holdsCount σ l = l.countP (fun c => holds σ c) := by
  induction l with
  | nil => rfl
  | cons a l ih =>
    simp only [holdsCount, ih, List.countP_cons]
    omega

theorem holdsCount_all {G : Type} (σ : Assignment G) (l : List (SigmaBoolean G)) :
    (holdsCount σ l == l.length) = true ↔ ∀ c ∈ l, holds σ c = true := by
  rw [holdsCount_countP]; simp

theorem holdsCount_any {G : Type} (σ : Assignment G) (l : List (SigmaBoolean G)) :
    (holdsCount σ l != 0) = true ↔ ∃ c ∈ l, holds σ c = true := by
  rw [holdsCount_countP]; simp

theorem nontrivial_iff {G : Type} (t : SigmaBoolean G) : nontrivial t ↔ asTrivial t = none := by
  cases t <;> simp [nontrivial, asTrivial]

theorem asTrivial_some {G : Type} {t : SigmaBoolean G} {b : Bool} (h : asTrivial t = some b) : t = trivial b := by
  cases t <;> simp [asTrivial] at h ⊢; exact h

theorem candLoop_spec {G : Type} (l : List (SigmaBoolean G)) :
    match candLoop l with
    | none => ∀ σ : Assignment G, holdsCount σ l < l.length
    | some res => (∀ σ : Assignment G, holdsCount σ res + l.length = holdsCount σ l + res.length) ∧
        res.Sublist l ∧ ∀ c ∈ res, nontrivial c := by
  induction l with
  | nil => simp [candLoop, holdsCount]
  | cons a l ih =>
    have nt : ∀ a : SigmaBoolean G, nontrivial a → candLoop (a :: l) = (candLoop l).map (a :: ·) →
        match candLoop (a :: l) with
        | none => ∀ σ : Assignment G, holdsCount σ (a :: l) < (a :: l).length
        | some res => (∀ σ : Assignment G, holdsCount σ res + (a :: l).length = holdsCount σ (a :: l) + res.length) ∧
            res.Sublist (a :: l) ∧ ∀ c ∈ res, nontrivial c := by
      intro a ha e
      rw [e]
      cases h : candLoop l with
      | none =>
        rw [h] at ih
        intro σ
        have := ih σ
        simp only [holdsCount, List.length_cons]
        split <;> omega
      | some res =>
        rw [h] at ih
        obtain ⟨h1, h2, h3⟩ := ih
        refine ⟨fun σ => ?_, h2.cons₂ _, ?_⟩
        · have := h1 σ
          simp only [holdsCount, List.length_cons]
          omega
        · intro c hc
          rcases List.mem_cons.1 hc with rfl | hc
          · exact ha
          · exact h3 c hc
    cases a with
    | trivial b =>
      cases b with
      | false =>
        show ∀ σ : Assignment G, holdsCount σ (trivial false :: l) < (trivial false :: l).length
        intro σ
        have := holdsCount_le σ l
        simp [holdsCount, holds]; omega
      | true =>
        have e : candLoop (trivial true :: l) = candLoop l := rfl
        rw [e]
        cases h : candLoop l with
        | none =>
          rw [h] at ih
          intro σ
          have := ih σ
          simp only [holdsCount, holds, List.length_cons]
          simp; omega
        | some res =>
          rw [h] at ih
          obtain ⟨h1, h2, h3⟩ := ih
          refine ⟨fun σ => ?_, h2.cons _, h3⟩
          have := h1 σ
          simp only [holdsCount, holds, List.length_cons]
          simp; omega
    | dlog h => exact nt _ True.intro rfl
    | dht g h u v => exact nt _ True.intro rfl
    | cand l => exact nt _ True.intro rfl
    | cor l => exact nt _ True.intro rfl
    | cth k l => exact nt _ True.intro rfl

theorem corLoop_spec {G : Type} (l : List (SigmaBoolean G)) :
    match corLoop l with
    | none => ∀ σ : Assignment G, 0 < holdsCount σ l
    | some res => (∀ σ : Assignment G, holdsCount σ res = holdsCount σ l) ∧
        res.Sublist l ∧ ∀ c ∈ res, nontrivial c := by
  induction l with
  | nil => simp [corLoop, holdsCount]
  | cons a l ih =>
    have nt : ∀ a : SigmaBoolean G, nontrivial a → corLoop (a :: l) = (corLoop l).map (a :: ·) →
        match corLoop (a :: l) with
        | none => ∀ σ : Assignment G, 0 < holdsCount σ (a :: l)
        | some res => (∀ σ : Assignment G, holdsCount σ res = holdsCount σ (a :: l)) ∧
            res.Sublist (a :: l) ∧ ∀ c ∈ res, nontrivial c := by
      intro a ha e
      rw [e]
      cases h : corLoop l with
      | none =>
        rw [h] at ih
        intro σ
        have := ih σ
        simp only [holdsCount]
        omega
      | some res =>
        rw [h] at ih
        obtain ⟨h1, h2, h3⟩ := ih
        refine ⟨fun σ => ?_, h2.cons₂ _, ?_⟩
        · simp only [holdsCount, h1 σ]
        · intro c hc
          rcases List.mem_cons.1 hc with rfl | hc
          · exact ha
          · exact h3 c hc
    cases a with
    | trivial b =>
      cases b with
      | true =>
        show ∀ σ : Assignment G, 0 < holdsCount σ (trivial true :: l)
        intro σ
        simp [holdsCount, holds]
      | false =>
        have e : corLoop (trivial false :: l) = corLoop l := rfl
        rw [e]
        cases h : corLoop l with
        | none =>
          rw [h] at ih
          intro σ
          have := ih σ
          simp only [holdsCount]; omega
        | some res =>
          rw [h] at ih
          obtain ⟨h1, h2, h3⟩ := ih
          refine ⟨fun σ => ?_, h2.cons _, h3⟩
          simp [holdsCount, holds, h1 σ]
    | dlog h => exact nt _ True.intro rfl
    | dht g h u v => exact nt _ True.intro rfl
    | cand l => exact nt _ True.intro rfl
    | cor l => exact nt _ True.intro rfl
    | cth k l => exact nt _ True.intro rfl

/-- What `normalized`/`reduce` achieve on the children `l` for the meaning `m`. -/
def Good {G : Type} (l : List (SigmaBoolean G)) (r : Outcome (SigmaBoolean G)) (m : Assignment G → Bool) : Prop :=
  ∃ t, r = .ok t ∧ (∀ σ, holds σ t = m σ) ∧ (noTrivialChild t ∨ t ∈ l) ∧ ((∀ c ∈ l, Bounded c) → Bounded t)

theorem candNormalized_good {G : Type} (l : List (SigmaBoolean G)) (h255 : l.length ≤ 255) :
    Good l (candNormalized l) (fun σ => holdsCount σ l == l.length) := by
  have hs := candLoop_spec l
  unfold candNormalized
  cases h : candLoop l with
  | none =>
    rw [h] at hs
    refine ⟨_, rfl, fun σ => ?_, Or.inl True.intro, fun _ => True.intro⟩
    have := hs σ
    have : holdsCount σ l ≠ l.length := by omega
    simp [holds, this]
  | some res =>
    rw [h] at hs
    obtain ⟨h1, h2, h3⟩ := hs
    match res, h1, h2, h3 with
    | [], h1, h2, h3 =>
      refine ⟨_, rfl, fun σ => ?_, Or.inl True.intro, fun _ => True.intro⟩
      have := h1 σ
      simp only [holdsCount, List.length_nil] at this
      simp [holds]; omega
    | [x], h1, h2, h3 =>
      have hx : x ∈ l := h2.subset (by simp)
      refine ⟨_, rfl, fun σ => ?_, Or.inr hx, fun hb => hb x hx⟩
      have := h1 σ
      simp only [holdsCount, List.length_cons, List.length_nil] at this
      cases hh : holds σ x
      · rw [hh] at this
        have : holdsCount σ l ≠ l.length := by simp at this; omega
        simp [this]
      · rw [hh] at this
        have : holdsCount σ l = l.length := by simp at this; omega
        simp [this]
    | x :: y :: res, h1, h2, h3 =>
      have hlen : (x :: y :: res).length ≤ 255 := Nat.le_trans h2.length_le h255
      have hlen2 : 2 ≤ (x :: y :: res).length := by simp
      refine ⟨cand (x :: y :: res), ?_, fun σ => ?_, Or.inl h3, fun hb => ?_⟩
      · simp only [toItems, if_pos (And.intro hlen2 hlen)]; rfl
      · have := h1 σ
        simp only [holds]
        rw [Bool.eq_iff_iff]; simp only [beq_iff_eq]; omega
      · simp only [Bounded, boundedList_iff]
        exact ⟨hlen2, hlen, fun c hc => hb c (h2.subset hc)⟩

theorem corNormalized_good {G : Type} (l : List (SigmaBoolean G)) (hne : l ≠ []) (h255 : l.length ≤ 255) :
    Good l (corNormalized l) (fun σ => holdsCount σ l != 0) := by
  have hs := corLoop_spec l
  unfold corNormalized
  rw [if_neg hne]
  cases h : corLoop l with
  | none =>
    rw [h] at hs
    refine ⟨_, rfl, fun σ => ?_, Or.inl True.intro, fun _ => True.intro⟩
    have := hs σ
    have : holdsCount σ l ≠ 0 := by omega
    simp [holds, this]
  | some res =>
    rw [h] at hs
    obtain ⟨h1, h2, h3⟩ := hs
    match res, h1, h2, h3 with
    | [], h1, h2, h3 =>
      refine ⟨_, rfl, fun σ => ?_, Or.inl True.intro, fun _ => True.intro⟩
      have := h1 σ
      simp only [holdsCount, List.length_nil] at this
      simp [holds, ← this]
    | [x], h1, h2, h3 =>
      have hx : x ∈ l := h2.subset (by simp)
      refine ⟨_, rfl, fun σ => ?_, Or.inr hx, fun hb => hb x hx⟩
      have := h1 σ
      simp only [holdsCount, List.length_cons, List.length_nil] at this
      cases hh : holds σ x
      · rw [hh] at this
        simp [← this]
      · rw [hh] at this
        simp [← this]
    | x :: y :: res, h1, h2, h3 =>
      have hlen : (x :: y :: res).length ≤ 255 := Nat.le_trans h2.length_le h255
      have hlen2 : 2 ≤ (x :: y :: res).length := by simp
      refine ⟨cor (x :: y :: res), ?_, fun σ => ?_, Or.inl h3, fun hb => ?_⟩
      · simp only [toItems, if_pos (And.intro hlen2 hlen)]; rfl
      · have := h1 σ
        simp only [holds, this]
      · simp only [Bounded, boundedList_iff]
        exact ⟨hlen2, hlen, fun c hc => hb c (h2.subset hc)⟩

theorem Good.mono {G : Type} {l l' : List (SigmaBoolean G)} {r : Outcome (SigmaBoolean G)}
    {m m' : Assignment G → Bool} (h : Good l r m) (hs : ∀ c ∈ l, c ∈ l') (hm : ∀ σ, m σ = m' σ) : Good l' r m' := by
  obtain ⟨t, h1, h2, h3, h4⟩ := h
  exact ⟨t, h1, fun σ => (h2 σ).trans (hm σ), h3.imp id (hs t), fun hb => h4 (fun c hc => hb c (hs c hc))⟩

theorem reduceFinish_good {G : Type} (k left : Nat) (res : List (SigmaBoolean G)) (hk1 : 1 ≤ k) (hkl : k ≤ left)
    (hlen : res.length = left) (hl2 : 2 ≤ left) (hl255 : left ≤ 255) (hnt : ∀ c ∈ res, nontrivial c) :
    Good res (reduceFinish k left res) (fun σ => decide (k ≤ holdsCount σ res)) := by
  unfold reduceFinish toItems
  rw [if_pos ⟨by omega, by omega⟩]
  simp only [Outcome.bind_ok]
  by_cases h1 : k = 1
  · rw [if_pos h1]
    refine (corNormalized_good res ?_ (by omega)).mono (fun c hc => hc) (fun σ => ?_)
    · intro e; subst e; simp at hlen; omega
    · subst h1; rw [Bool.eq_iff_iff]; simp; omega
  · rw [if_neg h1]
    by_cases h2 : k = left
    · rw [if_pos h2]
      refine (candNormalized_good res (by omega)).mono (fun c hc => hc) (fun σ => ?_)
      have := holdsCount_le σ res
      rw [Bool.eq_iff_iff]; simp only [beq_iff_eq, decide_eq_true_eq]; omega
    · rw [if_neg h2]
      refine ⟨_, rfl, fun σ => ?_, Or.inl hnt, fun hb => ?_⟩
      · simp only [holds, BitVec.toNat_ofNat]
        rw [Nat.mod_eq_of_lt (by omega : k < 2 ^ 8)]
      · simp only [Bounded, boundedList_iff]
        exact ⟨by omega, by omega, hb⟩

theorem reduceLoop_good {G : Type} (rest : List (SigmaBoolean G)) : ∀ (k left : Nat) (res : List (SigmaBoolean G)),
    1 ≤ k → k ≤ left → 2 ≤ left → left ≤ 255 → res.length + rest.length = left → (∀ c ∈ res, nontrivial c) →
    Good (res ++ rest) (reduceLoop k left res rest) (fun σ => decide (k ≤ holdsCount σ (res ++ rest))) := by
  induction rest with
  | nil =>
    intro k left res h1 h2 h3 h4 h5 h6
    simp only [List.append_nil]
    exact reduceFinish_good k left res h1 h2 (by simpa using h5) h3 h4 h6
  | cons ch rest ih =>
    intro k left res h1 h2 h3 h4 h5 h6
    unfold reduceLoop
    have hlen : (res ++ ch :: rest).length = left := by simpa using h5
    have hti : toItems (res ++ ch :: rest) = .ok (res ++ ch :: rest) := by
      unfold toItems; rw [if_pos ⟨by omega, by omega⟩]
    by_cases hk1 : k = 1
    · rw [if_pos hk1, hti, Outcome.bind_ok]
      refine (corNormalized_good _ (by simp) (by omega)).mono (fun c hc => hc) (fun σ => ?_)
      subst hk1; rw [Bool.eq_iff_iff]; simp; omega
    rw [if_neg hk1]
    by_cases hkl : k = left
    · rw [if_pos hkl, hti, Outcome.bind_ok]
      refine (candNormalized_good _ (by omega)).mono (fun c hc => hc) (fun σ => ?_)
      have := holdsCount_le σ (res ++ ch :: rest)
      rw [Bool.eq_iff_iff]; simp only [beq_iff_eq, decide_eq_true_eq]; omega
    rw [if_neg hkl]
    simp only [List.length_cons] at h5
    obtain ⟨k', rfl⟩ : ∃ k', k = k' + 1 := ⟨k - 1, by omega⟩
    obtain ⟨left', rfl⟩ : ∃ l', left = l' + 1 := ⟨left - 1, by omega⟩
    have hsub : ∀ c ∈ res ++ rest, c ∈ res ++ ch :: rest := by
      intro c hc
      simp only [List.mem_append, List.mem_cons] at hc ⊢
      rcases hc with h | h
      · exact Or.inl h
      · exact Or.inr (Or.inr h)
    cases ht : asTrivial ch with
    | some b =>
      have hch := asTrivial_some ht
      subst hch
      cases b with
      | true =>
        simp only [dec1, Outcome.bind_ok]
        refine (ih k' left' res (by omega) (by omega) (by omega) (by omega) (by omega) h6).mono hsub (fun σ => ?_)
        simp only [holdsCount_append, holdsCount, holds]
        rw [Bool.eq_iff_iff]; simp; omega
      | false =>
        simp only [dec1, Outcome.bind_ok]
        refine (ih (k' + 1) left' res (by omega) (by omega) (by omega) (by omega) (by omega) h6).mono hsub
          (fun σ => ?_)
        simp only [holdsCount_append, holdsCount, holds]
        simp
    | none =>
      simp only
      have := ih (k' + 1) (left' + 1) (res ++ [ch]) (by omega) (by omega) (by omega) (by omega)
        (by simp; omega) (by
          intro c hc
          rcases List.mem_append.1 hc with h | h
          · exact h6 c h
          · rw [List.mem_singleton.1 h]; exact (nontrivial_iff ch).2 ht)
      simpa only [List.append_assoc, List.singleton_append] using this

end SigmaBoolean
end Verif
