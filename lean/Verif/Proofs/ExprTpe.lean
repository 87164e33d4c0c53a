import Verif.Spec.Expr

set_option linter.unusedVariables false
set_option linter.unusedSimpArgs false

/-! Replacing placeholders keeps types and scopes. -/

namespace Verif
open Spec Expr
variable {G B : Type}

/-- What a reader makes of a placeholder. -/
def phOf (R : Reader G B) (id : BitVec 32) (t : SType) : Expr G B :=
  if R.subst then (match R.consts[id.toNat]? with
    | some c => .const c
    | none => .placeholder id t) else .placeholder id t

theorem mapPh_id (e : Expr G B) : mapPh (fun id t => .placeholder id t) e = e := by
  refine Expr.rec (motive_1 := fun e => mapPh (fun id t => .placeholder id t) e = e)
    (motive_2 := fun l => mapPhs (fun id t => .placeholder id t) l = l) ?_ ?_ ?_ ?_ ?_ ?_ ?_ ?_ ?_ ?_ ?_ ?_ ?_ ?_ ?_ ?_ ?_
    ?_ ?_ ?_ ?_ ?_ ?_ ?_ ?_ e
  all_goals intros
  all_goals simp only [mapPh, mapPhs, *]

theorem readAs_eq (R : Reader G B) (e : Expr G B) : readAs R e = mapPh (phOf R) e := by
  unfold readAs
  have hf : phOf R = (if R.subst then (fun id t => match R.consts[id.toNat]? with
    | some c => .const c
    | none => .placeholder id t) else (fun id t => .placeholder id t) : BitVec 32 → SType → Expr G B) := by
    funext id t
    unfold phOf
    cases R.subst <;> rfl
  rw [hf]
  cases R.subst
  · simp [mapPh_id]
  · rfl

theorem tpe_after_mapPh (utf8 : Bytes → Bool) (bwf : B → Prop) (R : Reader G B) (e : Expr G B) :
    ∀ st, Good utf8 bwf R e st → tpe (mapPh (phOf R) e) = tpe e ∧ after (mapPh (phOf R) e) st = after e st := by
  refine Expr.rec
    (motive_1 := fun e => ∀ st, Good utf8 bwf R e st →
      tpe (mapPh (phOf R) e) = tpe e ∧ after (mapPh (phOf R) e) st = after e st)
    (motive_2 := fun l => ∀ st, GoodAll utf8 bwf R l st →
      tpes (mapPhs (phOf R) l) = tpes l ∧ afterAll (mapPhs (phOf R) l) st = afterAll l st) ?_ ?_ ?_ ?_ ?_ ?_ ?_ ?_ ?_ ?_ ?_
    ?_ ?_ ?_ ?_ ?_ ?_ ?_ ?_ ?_ ?_ ?_ ?_ ?_ ?_ e
  case refine_2 =>
    intro id t st h
    rw [Good] at h
    obtain ⟨c, h1, h2⟩ := h
    rw [mapPh]
    unfold phOf
    rw [h1]
    cases R.subst
    · exact ⟨rfl, rfl⟩
    · exact ⟨by rw [if_pos rfl]; dsimp only; rw [tpe, tpe, h2], rfl⟩
  all_goals intros
  all_goals simp_all [mapPh, mapPhs, tpe, tpes, after, afterAll, Good, GoodAll]
  case refine_5 ih st h => rw [(ih st h.2.2).1]
  case refine_6 ih _ st h => rw [(ih st h.2.1).1]
  case refine_9 ih st h => rw [(ih st h.2).1]
  case refine_13 ih _ _ st h => rw [(ih st h.2.2.1).1]
  case refine_16 ih st h => rw [(ih st h.2.2).1]
  case refine_18 ih st h => rw [(ih _ h.2.2).1]
  case refine_19 ih _ st h => rw [(ih _ h.2.2.1).1]
  case refine_20 _ ih st h => rw [(ih _ h.2.2).1]
  case refine_21 ih st h => rw [(ih _ h).1]; exact ⟨rfl, rfl⟩
  case refine_25 ih ih' st h => exact ⟨(ih _ h.1).1, (ih' _ h.2).1⟩

theorem tpe_readAs {utf8 : Bytes → Bool} {bwf : B → Prop} {R : Reader G B} {e : Expr G B} {st : TStore}
    (h : Good utf8 bwf R e st) : tpe (readAs R e) = tpe e := by
  rw [readAs_eq]; exact (tpe_after_mapPh utf8 bwf R e st h).1

theorem mapPhs_length (f : BitVec 32 → SType → Expr G B) (l : List (Expr G B)) : (mapPhs f l).length = l.length := by
  induction l with
  | nil => rfl
  | cons e l ih => simp only [mapPhs, List.length_cons, ih]

theorem tpes_length (l : List (Expr G B)) : (tpes l).length = l.length := by
  induction l with
  | nil => rfl
  | cons e l ih => simp only [tpes, List.length_cons, ih]

theorem tpes_mapPhs {utf8 : Bytes → Bool} {bwf : B → Prop} {R : Reader G B} :
    ∀ {l : List (Expr G B)} {st : TStore}, GoodAll utf8 bwf R l st → tpes (mapPhs (phOf R) l) = tpes l
  | [], _, _ => rfl
  | e :: l, st, h => by
    rw [GoodAll] at h
    simp only [mapPhs, tpes, (tpe_after_mapPh utf8 bwf R e st h.1).1, tpes_mapPhs h.2]

end Verif
