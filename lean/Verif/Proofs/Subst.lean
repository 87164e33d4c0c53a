import Verif.Proofs.ErgoTree
import Verif.Proofs.EvalM
import Verif.Proofs.SType
import Verif.Proofs.Coll
import Verif.Spec.Subst

set_option linter.unusedSimpArgs false
set_option linter.unusedVariables false

/-! # Helper lemmas about the substitution of constants -/

namespace Verif
open Spec
variable {G B T : Type}

/-- The value of a well typed constant is turned into this constant again. -/
theorem toConstant_ofLiteral {bwf : B → Prop} : ∀ (v : Literal G B) (t : SType), WellTyped bwf v t →
    (Value.ofLiteral v).toConstant = some ⟨t, v⟩ := by
  refine Literal.rec (motive_1 := fun v => ∀ t, WellTyped bwf v t → (Value.ofLiteral v).toConstant = some ⟨t, v⟩)
    (motive_2 := fun l => (∀ t, AllOf bwf l t → ∃ cs, Value.toConstants (Value.ofLiterals l) = some cs ∧ cs.map Constant.v = l) ∧
      ∀ ts, Pointwise bwf l ts → ∃ cs, Value.toConstants (Value.ofLiterals l) = some cs ∧ cs.map Constant.v = l ∧ cs.map Constant.tpe = ts)
    ?_ ?_ ?_ ?_ ?_ ?_ ?_ ?_ ?_ ?_ ?_ ?_ ?_ ?_ ?_ ?_ ?_ ?_
  case refine_13 =>
    intro e items ih t h
    cases t <;> simp only [WellTyped] at h
    obtain ⟨rfl, _, _, h⟩ := h
    obtain ⟨cs, h1, h2⟩ := ih.1 _ h
    rw [Value.ofLiteral, Value.toConstant, h1, ← h2]
    rfl
  case refine_14 =>
    intro items ih t h
    cases t <;> simp only [WellTyped] at h
    obtain ⟨cs, h1, h2, h3⟩ := ih.2 _ h.2.2
    rw [Value.ofLiteral, Value.toConstant, h1, ← h2, ← h3]
    rfl
  case refine_17 =>
    refine ⟨fun t _ => ⟨[], by rw [Value.ofLiterals, Value.toConstants], rfl⟩, fun ts h => ?_⟩
    cases ts with
    | nil => exact ⟨[], by rw [Value.ofLiterals, Value.toConstants], rfl, rfl⟩
    | cons _ _ => simp only [Pointwise] at h
  case refine_18 =>
    intro x l ih1 ih2
    refine ⟨fun t h => ?_, fun ts h => ?_⟩
    · rw [AllOf] at h
      obtain ⟨cs, h1, h2⟩ := ih2.1 t h.2
      refine ⟨⟨t, x⟩ :: cs, ?_, by rw [← h2]; rfl⟩
      rw [Value.ofLiterals, Value.toConstants, ih1 t h.1, h1]
      rfl
    · cases ts with
      | nil => simp only [Pointwise] at h
      | cons t ts =>
        rw [Pointwise] at h
        obtain ⟨cs, h1, h2, h3⟩ := ih2.2 ts h.2
        refine ⟨⟨t, x⟩ :: cs, ?_, by rw [← h2]; rfl, by rw [← h3]; rfl⟩
        rw [Value.ofLiterals, Value.toConstants, ih1 t h.1, h1]
        rfl
  case refine_12 =>
    intro b t h
    cases t <;> simp only [WellTyped] at h
    rw [h.1]
    rfl
  all_goals
    intros
    rename_i t h
    cases t <;> simp only [WellTyped] at h <;> rfl

theorem toConstants_ofLiteral {bwf : B → Prop} (cs : List (Constant G B)) (h : ∀ c ∈ cs, WellTyped bwf c.v c.tpe) :
    Value.toConstants (cs.map fun c => Value.ofLiteral c.v) = some cs := by
  induction cs with
  | nil => rw [List.map_nil, Value.toConstants]
  | cons c cs ih =>
    rw [List.map_cons, Value.toConstants, toConstant_ofLiteral _ _ (h c (by simp)), ih fun c hc => h c (by simp [hc])]
    rfl

theorem replacement_cons (p : Int × Constant G B) (ups : List (Int × Constant G B)) (j : Nat) :
    replacement (p :: ups) j = (replacement ups j).or (if p.1 = (j : Int) then some p.2 else none) := by
  unfold replacement
  rw [List.reverse_cons, List.find?_append]
  cases ups.reverse.find? fun p => decide (p.1 = (j : Int)) with
  | some x => rfl
  | none =>
    by_cases h : p.1 = (j : Int) <;> simp [h]

theorem replaceAll_nil (C : List (Constant G B)) : replaceAll [] C = C := by
  apply List.ext_getElem?
  intro j
  unfold replaceAll
  rw [List.getElem?_mapIdx]
  show Option.map (fun x => x) _ = _
  simp

theorem replaceAll_set (ups : List (Int × Constant G B)) (i : Int) (hi : 0 ≤ i) (c : Constant G B) (C : List (Constant G B)) :
    replaceAll ups (C.set i.toNat c) = replaceAll ((i, c) :: ups) C := by
  apply List.ext_getElem?
  intro j
  unfold replaceAll
  rw [List.getElem?_mapIdx, List.getElem?_mapIdx, List.getElem?_set, replacement_cons]
  by_cases h : i = (j : Int)
  · subst h
    simp only [Int.toNat_natCast, if_true]
    by_cases hi : j < C.length
    · simp only [hi, if_true, List.getElem?_eq_getElem]
      cases replacement ups j <;> rfl
    · simp [hi]
  · have h' : i.toNat ≠ j := by omega
    simp only [h, h', if_false]
    cases replacement ups j <;> rfl

theorem replaceAll_length (ups : List (Int × Constant G B)) (C : List (Constant G B)) : (replaceAll ups C).length = C.length := by
  unfold replaceAll; simp

/-- A fitting replacement keeps the types. -/
theorem fitting_set {C : List (Constant G B)} {p q : Int × Constant G B} (hp : Fitting C p) :
    Fitting (C.set p.1.toNat p.2) q ↔ Fitting C q := by
  obtain ⟨h0, old, h1, h2⟩ := hp
  have hl : p.1.toNat < C.length := (List.getElem?_eq_some_iff.1 h1).1
  unfold Fitting
  refine and_congr_right fun hq => ?_
  rw [List.getElem?_set]
  by_cases h : p.1.toNat = q.1.toNat
  · rw [if_pos h, if_pos hl, ← h, h1]
    simp [h2]
  · rw [if_neg h]

theorem withConstant_fit {h : TreeHeader} {C : List (Constant G B)} {root : Expr G B} {i : Nat} {c old : Constant G B}
    (h1 : C[i]? = some old) (h2 : old.tpe = c.tpe) :
    (ETree.parsed h C root).withConstant i c = some (.parsed h (C.set i c) root) := by
  unfold ETree.withConstant
  simp only [h1]
  rw [if_pos ((SType.beq_iff _ _).2 h2.symm)]

/-- The loop of the substitution. -/
theorem substLoop_ok (h : TreeHeader) (root : Expr G B) (num : Nat) (hnum : num < 2 ^ 31) : ∀ (ups : List (BitVec 32 × Constant G B))
    (C : List (Constant G B)), num = C.length → (∀ p ∈ ups, Fitting C (p.1.toInt, p.2)) →
    Value.substLoop num ups (.parsed h C root) = .ok (.parsed h (replaceAll (ups.map fun p => (p.1.toInt, p.2)) C) root)
  | [], C, hn, hf => by
    rw [List.map_nil, replaceAll_nil]
    rfl
  | (i, c) :: ups, C, hn, hf => by
    have h0 : Fitting C (i.toInt, c) := hf (i, c) (by simp)
    obtain ⟨hi, old, h1, h2⟩ := h0
    dsimp only at hi h1 h2
    have hl : i.toInt.toNat < C.length := (List.getElem?_eq_some_iff.1 h1).1
    rw [Value.substLoop, usizeOf_nonneg hi, if_pos (by omega), withConstant_fit h1 h2]
    show Value.substLoop num ups (.parsed h (C.set i.toInt.toNat c) root) = _
    rw [substLoop_ok h root num hnum ups _ (by simpa using hn) fun p hp =>
      (fitting_set (p := (i.toInt, c)) ⟨hi, old, h1, h2⟩).2 (hf p (by simp [hp]))]
    rw [replaceAll_set _ _ hi]
    rfl

theorem substLoop_err (h : TreeHeader) (root : Expr G B) (num : Nat) (hnum : num < 2 ^ 31) : ∀ (ups : List (BitVec 32 × Constant G B))
    (C : List (Constant G B)), num = C.length → (¬ ∀ p ∈ ups, Fitting C (p.1.toInt, p.2)) →
    Value.substLoop num ups (.parsed h C root) = .err .misc
  | [], C, hn, hf => absurd (by simp) hf
  | (i, c) :: ups, C, hn, hf => by
    rw [Value.substLoop]
    split
    · rename_i hlt
      obtain ⟨hi, hi2⟩ := (usizeOf_lt_iff hnum i).1 hlt
      rw [usizeOf_nonneg hi]
      have hl : i.toInt.toNat < C.length := by omega
      by_cases ht : (C[i.toInt.toNat]).tpe = c.tpe
      · have h1 : C[i.toInt.toNat]? = some C[i.toInt.toNat] := List.getElem?_eq_getElem hl
        rw [withConstant_fit h1 ht]
        show Value.substLoop num ups (.parsed h (C.set i.toInt.toNat c) root) = _
        have h0 : Fitting C (i.toInt, c) := ⟨hi, _, h1, ht⟩
        refine substLoop_err h root num hnum ups _ (by simpa using hn) fun hall => hf fun p hp => ?_
        rcases List.mem_cons.1 hp with rfl | hp
        · exact h0
        · exact (fitting_set (p := (i.toInt, c)) h0).1 (hall p hp)
      · unfold ETree.withConstant
        simp only [List.getElem?_eq_getElem hl]
        rw [if_neg fun hb => ht ((SType.beq_iff _ _).1 hb).symm]
        rfl
    · rfl

theorem mapAll_asInt (l : List (BitVec 32)) : Res.mapAll Value.asInt (l.map (Value.int : BitVec 32 → Value G B)) = .ok l := by
  induction l with
  | nil => rfl
  | cons a l ih => rw [List.map_cons, Res.mapAll, ih]; rfl

/-- A parsed tree is good. -/
theorem parseBytes_good [DecidableEq G] (E : Sers G B T) {bwf : B → Prop} (hp : BoxParsed E.bc bwf) (M : Byte → Byte → Option FuncSig)
    (b : Bytes) (h : TreeHeader) (C : List (Constant G B)) (root : Expr G B) (he : ETree.parseBytes E M b = some (.parsed h C root)) :
    GoodTree E bwf M (.parsed h C root : ETree G B) := by
  unfold ETree.parseBytes at he
  split at he
  · cases he
  · rename_i h' r hh
    have hg : GoodHeader h' := by
      obtain ⟨x, r1, _, h2⟩ := Parser.bind_eq_some.1 hh
      cases hx : TreeHeader.new x with
      | none => rw [hx] at h2; cases h2
      | some y =>
        rw [hx] at h2
        cases h2
        exact TreeHeader.new_good hx
    split at he
    · split at he
      · cases he
      · split at he
        · split at he
          · rename_i x hx
            have : GoodTree E bwf M x.1.1 := ETree.post_body E hp M h' hg _ x.1 x.2 hx
            simp only [Option.some.injEq] at he
            rw [he] at this
            exact this
          · cases he
        · cases he
    · split at he
      · rename_i x hx
        split at he
        · have : GoodTree E bwf M x.1.1 := ETree.post_body E hp M h' hg _ x.1 x.2 hx
          simp only [Option.some.injEq] at he
          rw [he] at this
          exact this
        · cases he
      · cases he

/-- Replacements by good constants that fit keep a tree good. -/
theorem replaceAll_good {E : Sers G B T} {bwf : B → Prop} {M : Byte → Byte → Option FuncSig} {h : TreeHeader} {C : List (Constant G B)}
    {root : Expr G B} (hg : GoodTree E bwf M (.parsed h C root : ETree G B)) {ups : List (Int × Constant G B)}
    (hf : ∀ p ∈ ups, Fitting C p) (hc : ∀ p ∈ ups, GoodConst E.utf8 bwf p.2) :
    GoodTree E bwf M (.parsed h (replaceAll ups C) root : ETree G B) := by
  have hr : ∀ j c, replacement ups j = some c → ((j : Int), c) ∈ ups := by
    intro j c hj
    unfold replacement at hj
    obtain ⟨p, h1, rfl⟩ := Option.map_eq_some_iff.1 hj
    have h2 := List.find?_some h1
    have h3 := List.mem_of_find?_eq_some h1
    simp only [decide_eq_true_eq] at h2
    rw [← h2]
    exact List.mem_reverse.1 h3
  obtain ⟨h1, h2, h3, h4, h5⟩ := hg
  refine ⟨h1, fun hs => ?_, by rw [replaceAll_length]; exact h3, fun c hc' => ?_, ?_⟩
  · rw [h2 hs]; rfl
  · obtain ⟨j, hj⟩ := List.mem_iff_getElem?.1 hc'
    unfold replaceAll at hj
    rw [List.getElem?_mapIdx] at hj
    obtain ⟨d, hd, rfl⟩ := Option.map_eq_some_iff.1 hj
    cases hu : replacement ups j with
    | none => exact h4 d (List.mem_of_getElem? hd)
    | some c => exact hc _ (hr j c hu)
  · refine good_congr (R := treeReader C M) (R' := treeReader (replaceAll ups C) M) (fun j c' hj => ?_) rfl root [] h5
    have hj : C[j]? = some c' := hj
    refine ⟨(replacement ups j).getD c', ?_, ?_⟩
    · show (replaceAll ups C)[j]? = _
      unfold replaceAll
      rw [List.getElem?_mapIdx, hj]
      rfl
    · cases hu : replacement ups j with
      | none => rfl
      | some c =>
        obtain ⟨_, old, ho, ht⟩ := hf _ (hr j c hu)
        simp only [Int.toNat_natCast] at ho
        rw [ho] at hj
        cases hj
        exact ht.symm

end Verif
