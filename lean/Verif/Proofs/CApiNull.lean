import Verif.Proofs.CApiRun

/-! Helper lemmas: calls with null arguments, calls that make something. -/

set_option linter.unusedSimpArgs false
set_option linter.unusedVariables false

namespace Verif
namespace CApi
open Spec.CApi

theorem readVal_none {k : Kind} {n : String} {m : Mem} : readVal k none n m = .done (.error (.invalidArgument n)) m := rfl

theorem readColl_none {k : Kind} {n : String} {m : Mem} : readColl k none n m = .done (.error (.invalidArgument n)) m := rfl

theorem outPtr_none {n : String} {m : Mem} : outPtr none n m = .done (.error (.invalidArgument n)) m := rfl

theorem readVal_some {k : Kind} {n : String} {m : Mem} {a : Addr} {v : Val} (h : FMap.get m.heap a = some (.val v)) (hk : v.kind = k) :
    readVal k (some a) n m = .done (.ok v) m := readVal_ok.2 ⟨rfl, a, rfl, h, hk⟩

theorem readColl_some {k : Kind} {n : String} {m : Mem} {a : Addr} {vs : List Val} (h : FMap.get m.heap a = some (.coll k vs)) :
    readColl k (some a) n m = .done (.ok vs) m := readColl_ok.2 ⟨rfl, a, rfl, h⟩

theorem outPtr_some {n : String} {m : Mem} {a : Addr} {x : Ptr} (h : FMap.get m.outs a = some x) :
    outPtr (some a) n m = .done (.ok a) m := outPtr_ok.2 ⟨rfl, rfl, x, h⟩

theorem rawOut_some {m : Mem} {a : Addr} {x : Ptr} (h : FMap.get m.outs a = some x) :
    rawOut (some a) m = .done (.ok a) m := rawOut_ok.2 ⟨rfl, rfl, x, h⟩

theorem rawParts_some {m : Mem} {a n : Nat} {b : Bytes} (h : FMap.get m.bufs a = some b) (hn : n ≤ b.length) :
    rawParts (some a) n m = .done (.ok (b.take n)) m := rawParts_ok.2 ⟨rfl, a, b, rfl, h, hn, rfl⟩

theorem unwrap_apply {α : Type} {x : Run α} {m : Mem} : x.unwrap m = match x m with
    | .done (.error _) _ => .panic
    | s => s := rfl

/-- The value returned by a call that made what was asked for. -/
def Good (r : CRet) : Prop := r = .unit ∨ r = .errPtr none ∨ r = .option true none

/-- Every call that can make its object does. -/
theorem exec_makes {E : Env} {m : Mem} (hm : MemOk m) {c : Call} {o : Addr} {obj : Obj} (h : Makes E m c o obj) {x : Ptr}
    (hx : FMap.get m.outs o = some x) : ∃ r, exec E c m = .done (.ok r) (given E m o obj) ∧ Good r := by
  cases h with
  | collNew k o =>
    refine ⟨.unit, ?_, .inl rfl⟩
    simp [exec, collectionNew, bind_apply, unwrap_apply, outPtr_some hx, give_apply, pure_apply]
  | collGet o h hi =>
    refine ⟨.option true none, ?_, .inr (.inr rfl)⟩
    simp [exec, collectionGet, bind_apply, unwrap_apply, outPtr_some hx, give_apply, pure_apply, readColl_some h, hi]
  | byteArray o h hn =>
    refine ⟨.errPtr none, ?_, .inr (.inl rfl)⟩
    simp [exec, byteArrayFromRawParts, cApiFrom, bind_apply, outPtr_some hx, give_apply, pure_apply, rawParts_some h hn]
  | boxIdFromStr o h hd =>
    refine ⟨.errPtr none, ?_, .inr (.inl rfl)⟩
    simp [exec, boxIdFromStr, cStr, cApiFrom, bind_apply, outPtr_some hx, give_apply, pure_apply, (digestOfStr_ok (m := m)).2 ⟨rfl, h, hd⟩]
  | boxIdToStr o h =>
    refine ⟨.unit, ?_, .inl rfl⟩
    simp [exec, strOut, idToStr, unwrap_apply, bind_apply, rawOut_some hx, give_apply, pure_apply,
      readVal_some (k := .boxId) h rfl, Val.digest]
  | boxValueFromI64 o h =>
    refine ⟨.errPtr none, ?_, .inr (.inl rfl)⟩
    simp [exec, boxValueFromI64, cApiFrom, bind_apply, outPtr_some hx, give_apply, pure_apply, boxValue_bounds, h]
  | boxValueSumOf o hp hq h =>
    refine ⟨.errPtr none, ?_, .inr (.inl rfl)⟩
    simp [exec, boxValueSumOf, cApiFrom, bind_apply, outPtr_some hx, give_apply, pure_apply,
      readVal_some (k := .boxValue) hp rfl, readVal_some (k := .boxValue) hq rfl, Val.amount, sum_eval (hm _ _ hp) (hm _ _ hq), h]
  | tokenIdFromBoxId o h =>
    refine ⟨.unit, ?_, .inl rfl⟩
    simp [exec, tokenIdFromBoxId, unwrap_apply, bind_apply, outPtr_some hx, give_apply, pure_apply,
      readVal_some (k := .boxId) h rfl, Val.digest]
  | tokenIdFromStr o h hd =>
    refine ⟨.errPtr none, ?_, .inr (.inl rfl)⟩
    simp [exec, tokenIdFromStr, cStr, cApiFrom, bind_apply, outPtr_some hx, give_apply, pure_apply,
      (digestOfStr_ok (m := m)).2 ⟨rfl, h, hd⟩]
  | tokenIdToStr o h =>
    refine ⟨.unit, ?_, .inl rfl⟩
    simp [exec, strOut, idToStr, unwrap_apply, bind_apply, rawOut_some hx, give_apply, pure_apply,
      readVal_some (k := .tokenId) h rfl, Val.digest]
  | tokenAmountFromI64 o h =>
    refine ⟨.errPtr none, ?_, .inr (.inl rfl)⟩
    simp [exec, tokenAmountFromI64, cApiFrom, bind_apply, outPtr_some hx, give_apply, pure_apply, tokenAmount_bounds, h]
  | tokenNew o hp hq =>
    refine ⟨.unit, ?_, .inl rfl⟩
    simp [exec, tokenNew, unwrap_apply, bind_apply, outPtr_some hx, give_apply, pure_apply,
      readVal_some (k := .tokenId) hp rfl, readVal_some (k := .tokenAmount) hq rfl, Val.digest, Val.amount]
  | tokenGetId o h =>
    refine ⟨.unit, ?_, .inl rfl⟩
    simp [exec, tokenGetId, unwrap_apply, bind_apply, outPtr_some hx, give_apply, pure_apply,
      readVal_some (k := .token) h rfl, Val.digest, Val.amount]
  | tokenGetAmount o h =>
    refine ⟨.unit, ?_, .inl rfl⟩
    simp [exec, tokenGetAmount, unwrap_apply, bind_apply, outPtr_some hx, give_apply, pure_apply,
      readVal_some (k := .token) h rfl, Val.digest, Val.amount]
  | secretKeyFromBytes o h hn hq =>
    refine ⟨.errPtr none, ?_, .inr (.inl rfl)⟩
    simp [exec, secretKeyFromBytes, cApiFrom, bind_apply, rawOut_some hx, give_apply, pure_apply, rawParts_some h hn, hq]
  | secretKeyGenerateRandom w o =>
    refine ⟨.unit, ?_, .inl rfl⟩
    simp [exec, secretKeyGenerateRandom, unwrap_apply, bind_apply, rawOut_some hx, give_apply, pure_apply]

/-- How a call ends whose first null argument is `n`. -/
def NullEnd (E : Env) (m : Mem) (c : Call) (n : String) : Prop :=
  (Reports c → ∃ r, exec E c m = .done (.ok r) (withErr E m (.error (.invalidArgument n))) ∧ errorOf r = some (E.pick m.heap) ∧
    r ≠ .option true (some (E.pick m.heap))) ∧
  (¬ Reports c → exec E c m = .panic)

theorem getColl {m : Mem} {k : Kind} {p : Ptr} (h : PointsTo m (.coll k) p) :
    ∃ a vs, p = some a ∧ FMap.get m.heap a = some (.coll k vs) := by
  obtain ⟨a, o, rfl, ho, ht⟩ := h
  cases o with
  | coll k' vs => cases ht; exact ⟨a, vs, rfl, ho⟩
  | _ => exact absurd ht (by simp [HasTy])

/-- Null arguments: an error where there is a place for it, a panic otherwise. -/
theorem exec_null {E : Env} {m : Mem} (c : Call) {n : String} (h : ∀ x ∈ args c, x.Fine m)
    (hn : (args c).findSome? Arg.isNull = some n) : NullEnd E m c n := by
  cases c with
  | collNew k out =>
    cases out with
    | some o => simp [args, List.findSome?, Arg.isNull] at hn
    | none =>
      simp only [args, List.findSome?, Arg.isNull] at hn; cases hn
      exact ⟨fun h => h.elim, fun _ => by simp [exec, collectionNew, bind_apply, unwrap_apply, outPtr_none]⟩
  | collDelete k p => simp [args, List.findSome?, Arg.isNull] at hn
  | collLen k p =>
    cases p with
    | some o => simp [args, List.findSome?, Arg.isNull] at hn
    | none =>
      simp only [args, List.findSome?, Arg.isNull] at hn; cases hn
      exact ⟨fun h => h.elim, fun _ => by simp [exec, collectionLen, bind_apply, unwrap_apply, readColl_none]⟩
  | collGet k p i out =>
    simp only [args, List.mem_cons, List.not_mem_nil, or_false, forall_eq_or_imp, forall_eq, Arg.Fine] at h
    cases p with
    | none =>
      simp only [args, List.findSome?, Arg.isNull] at hn; cases hn
      refine ⟨fun _ => ⟨.option false (some (E.pick m.heap)), ?_, rfl, by simp⟩, fun h => (h trivial).elim⟩
      simp [exec, collectionGet, bind_apply, readColl_none, cApiFrom, Run.fail, alloc, pure_apply, withErr]
    | some a =>
      cases out with
      | some o => simp [args, List.findSome?, Arg.isNull] at hn
      | none =>
        simp only [args, List.findSome?, Arg.isNull] at hn; cases hn
        obtain ⟨b, vs, hb, hv⟩ := getColl (h.1.resolve_left (by simp))
        cases hb
        refine ⟨fun _ => ⟨.option false (some (E.pick m.heap)), ?_, rfl, by simp⟩, fun h => (h trivial).elim⟩
        simp [exec, collectionGet, bind_apply, readColl_some hv, outPtr_none, cApiFrom, Run.fail, alloc, pure_apply, withErr]
  | collAdd k e p =>
    simp only [args, List.mem_cons, List.not_mem_nil, or_false, forall_eq_or_imp, forall_eq, Arg.Fine] at h
    refine ⟨fun h => h.elim, fun _ => ?_⟩
    cases p with
    | none => simp [exec, collectionAdd, bind_apply, unwrap_apply, readColl_none]
    | some a =>
      cases e with
      | some o => simp [args, List.findSome?, Arg.isNull] at hn
      | none =>
        obtain ⟨b, vs, hb, hv⟩ := getColl (h.1.resolve_left (by simp))
        cases hb
        simp [exec, collectionAdd, bind_apply, unwrap_apply, readColl_some hv, readVal_none]
  | eq k p q =>
    simp only [args, List.mem_cons, List.not_mem_nil, or_false, forall_eq_or_imp, forall_eq, Arg.Fine] at h
    refine ⟨fun h => h.elim, fun _ => ?_⟩
    cases p with
    | none => simp [exec, derefEq, bind_apply, unwrap_apply, readVal_none]
    | some a =>
      cases q with
      | some o => simp [args, List.findSome?, Arg.isNull] at hn
      | none =>
        obtain ⟨b, v, hb, hv, hk⟩ := getVal (h.1.resolve_left (by simp))
        cases hb
        simp [exec, derefEq, bind_apply, unwrap_apply, readVal_some hv hk, readVal_none]
  | delete k p => simp [args, List.findSome?, Arg.isNull] at hn
  | byteArrayFromRawParts p len out =>
    simp only [args, List.mem_cons, List.not_mem_nil, or_false, forall_eq_or_imp, forall_eq, Arg.Fine] at h
    obtain ⟨⟨a, b, rfl, hb, hl⟩, _⟩ := h
    cases out with
    | some o => simp [args, List.findSome?, Arg.isNull] at hn
    | none =>
      simp only [args, List.findSome?, Arg.isNull] at hn; cases hn
      refine ⟨fun _ => ⟨.errPtr (some (E.pick m.heap)), ?_, rfl, by simp⟩, fun h => (h trivial).elim⟩
      simp [exec, byteArrayFromRawParts, bind_apply, rawParts_some hb hl, outPtr_none, cApiFrom, alloc, pure_apply, withErr]
  | boxIdFromStr s out =>
    simp only [args, List.mem_cons, List.not_mem_nil, or_false, forall_eq_or_imp, forall_eq, Arg.Fine] at h
    obtain ⟨t, rfl⟩ := Option.ne_none_iff_exists'.1 h.1
    cases out with
    | some o => simp [args, List.findSome?, Arg.isNull] at hn
    | none =>
      simp only [args, List.findSome?, Arg.isNull] at hn; cases hn
      refine ⟨fun _ => ⟨.errPtr (some (E.pick m.heap)), ?_, rfl, by simp⟩, fun h => (h trivial).elim⟩
      simp [exec, boxIdFromStr, cStr, bind_apply, outPtr_none, cApiFrom, alloc, pure_apply, withErr]
  | boxIdToStr p out =>
    cases p with
    | some o => simp [args, List.findSome?, Arg.isNull] at hn
    | none =>
      simp only [args, List.findSome?, Arg.isNull] at hn; cases hn
      exact ⟨fun h => h.elim, fun _ => by simp [exec, strOut, idToStr, bind_apply, unwrap_apply, readVal_none]⟩
  | boxIdToBytes p out =>
    cases p with
    | some o => simp [args, List.findSome?, Arg.isNull] at hn
    | none =>
      simp only [args, List.findSome?, Arg.isNull] at hn; cases hn
      exact ⟨fun h => h.elim, fun _ => by simp [exec, valToBytes, bind_apply, unwrap_apply, readVal_none]⟩
  | boxValueFromI64 k out =>
    cases out with
    | some o => simp [args, List.findSome?, Arg.isNull] at hn
    | none =>
      simp only [args, List.findSome?, Arg.isNull] at hn; cases hn
      refine ⟨fun _ => ⟨.errPtr (some (E.pick m.heap)), ?_, rfl, by simp⟩, fun h => (h trivial).elim⟩
      simp [exec, boxValueFromI64, bind_apply, outPtr_none, cApiFrom, alloc, pure_apply, withErr]
  | boxValueAsI64 p =>
    cases p with
    | some o => simp [args, List.findSome?, Arg.isNull] at hn
    | none =>
      simp only [args, List.findSome?, Arg.isNull] at hn; cases hn
      exact ⟨fun h => h.elim, fun _ => by simp [exec, amountAsI64, bind_apply, unwrap_apply, readVal_none]⟩
  | boxValueSumOf p q out =>
    simp only [args, List.mem_cons, List.not_mem_nil, or_false, forall_eq_or_imp, forall_eq, Arg.Fine] at h
    refine ⟨fun _ => ⟨.errPtr (some (E.pick m.heap)), ?_, rfl, by simp⟩, fun h => (h trivial).elim⟩
    cases p with
    | none =>
      simp only [args, List.findSome?, Arg.isNull] at hn; cases hn
      simp [exec, boxValueSumOf, bind_apply, readVal_none, cApiFrom, alloc, pure_apply, withErr]
    | some a =>
      obtain ⟨b, v, hb, hv, hk⟩ := getVal (h.1.resolve_left (by simp))
      cases hb
      cases q with
      | none =>
        simp only [args, List.findSome?, Arg.isNull] at hn; cases hn
        simp [exec, boxValueSumOf, bind_apply, readVal_some hv hk, readVal_none, cApiFrom, alloc, pure_apply, withErr]
      | some c =>
        obtain ⟨d, w, hd, hw, hl⟩ := getVal (h.2.1.resolve_left (by simp))
        cases hd
        cases out with
        | none =>
          simp only [args, List.findSome?, Arg.isNull] at hn; cases hn
          simp [exec, boxValueSumOf, bind_apply, readVal_some hv hk, readVal_some hw hl, outPtr_none, cApiFrom, alloc, pure_apply, withErr]
        | some o => simp [args, List.findSome?, Arg.isNull] at hn
  | tokenIdFromBoxId p out =>
    simp only [args, List.mem_cons, List.not_mem_nil, or_false, forall_eq_or_imp, forall_eq, Arg.Fine] at h
    refine ⟨fun h => h.elim, fun _ => ?_⟩
    cases p with
    | none => simp [exec, tokenIdFromBoxId, bind_apply, unwrap_apply, readVal_none]
    | some a =>
      cases out with
      | some o => simp [args, List.findSome?, Arg.isNull] at hn
      | none =>
        obtain ⟨b, v, hb, hv, hk⟩ := getVal (h.1.resolve_left (by simp))
        cases hb
        simp [exec, tokenIdFromBoxId, bind_apply, unwrap_apply, readVal_some hv hk, outPtr_none]
  | tokenIdFromStr s out =>
    simp only [args, List.mem_cons, List.not_mem_nil, or_false, forall_eq_or_imp, forall_eq, Arg.Fine] at h
    obtain ⟨t, rfl⟩ := Option.ne_none_iff_exists'.1 h.1
    cases out with
    | some o => simp [args, List.findSome?, Arg.isNull] at hn
    | none =>
      simp only [args, List.findSome?, Arg.isNull] at hn; cases hn
      refine ⟨fun _ => ⟨.errPtr (some (E.pick m.heap)), ?_, rfl, by simp⟩, fun h => (h trivial).elim⟩
      simp [exec, tokenIdFromStr, cStr, bind_apply, outPtr_none, cApiFrom, alloc, pure_apply, withErr]
  | tokenIdToStr p out =>
    cases p with
    | some o => simp [args, List.findSome?, Arg.isNull] at hn
    | none =>
      simp only [args, List.findSome?, Arg.isNull] at hn; cases hn
      exact ⟨fun h => h.elim, fun _ => by simp [exec, strOut, idToStr, bind_apply, unwrap_apply, readVal_none]⟩
  | tokenAmountFromI64 k out =>
    cases out with
    | some o => simp [args, List.findSome?, Arg.isNull] at hn
    | none =>
      simp only [args, List.findSome?, Arg.isNull] at hn; cases hn
      refine ⟨fun _ => ⟨.errPtr (some (E.pick m.heap)), ?_, rfl, by simp⟩, fun h => (h trivial).elim⟩
      simp [exec, tokenAmountFromI64, bind_apply, outPtr_none, cApiFrom, alloc, pure_apply, withErr]
  | tokenAmountAsI64 p =>
    cases p with
    | some o => simp [args, List.findSome?, Arg.isNull] at hn
    | none =>
      simp only [args, List.findSome?, Arg.isNull] at hn; cases hn
      exact ⟨fun h => h.elim, fun _ => by simp [exec, amountAsI64, bind_apply, unwrap_apply, readVal_none]⟩
  | tokenNew p q out =>
    simp only [args, List.mem_cons, List.not_mem_nil, or_false, forall_eq_or_imp, forall_eq, Arg.Fine] at h
    refine ⟨fun h => h.elim, fun _ => ?_⟩
    cases p with
    | none => simp [exec, tokenNew, bind_apply, unwrap_apply, readVal_none]
    | some a =>
      obtain ⟨b, v, hb, hv, hk⟩ := getVal (h.1.resolve_left (by simp))
      cases hb
      cases q with
      | none => simp [exec, tokenNew, bind_apply, unwrap_apply, readVal_some hv hk, readVal_none]
      | some c =>
        obtain ⟨d, w, hd, hw, hl⟩ := getVal (h.2.1.resolve_left (by simp))
        cases hd
        cases out with
        | none => simp [exec, tokenNew, bind_apply, unwrap_apply, readVal_some hv hk, readVal_some hw hl, outPtr_none]
        | some o => simp [args, List.findSome?, Arg.isNull] at hn
  | tokenGetId p out =>
    simp only [args, List.mem_cons, List.not_mem_nil, or_false, forall_eq_or_imp, forall_eq, Arg.Fine] at h
    refine ⟨fun h => h.elim, fun _ => ?_⟩
    cases p with
    | none => simp [exec, tokenGetId, bind_apply, unwrap_apply, readVal_none]
    | some a =>
      cases out with
      | some o => simp [args, List.findSome?, Arg.isNull] at hn
      | none =>
        obtain ⟨b, v, hb, hv, hk⟩ := getVal (h.1.resolve_left (by simp))
        cases hb
        simp [exec, tokenGetId, bind_apply, unwrap_apply, readVal_some hv hk, outPtr_none]
  | tokenGetAmount p out =>
    simp only [args, List.mem_cons, List.not_mem_nil, or_false, forall_eq_or_imp, forall_eq, Arg.Fine] at h
    refine ⟨fun h => h.elim, fun _ => ?_⟩
    cases p with
    | none => simp [exec, tokenGetAmount, bind_apply, unwrap_apply, readVal_none]
    | some a =>
      cases out with
      | some o => simp [args, List.findSome?, Arg.isNull] at hn
      | none =>
        obtain ⟨b, v, hb, hv, hk⟩ := getVal (h.1.resolve_left (by simp))
        cases hb
        simp [exec, tokenGetAmount, bind_apply, unwrap_apply, readVal_some hv hk, outPtr_none]
  | secretKeyFromBytes p out => simp [args, List.findSome?, Arg.isNull] at hn
  | secretKeyGenerateRandom w out => simp [args, List.findSome?, Arg.isNull] at hn
  | secretKeyToBytes p out =>
    cases p with
    | some o => simp [args, List.findSome?, Arg.isNull] at hn
    | none =>
      simp only [args, List.findSome?, Arg.isNull] at hn; cases hn
      exact ⟨fun h => h.elim, fun _ => by simp [exec, valToBytes, bind_apply, unwrap_apply, readVal_none]⟩
  | errorToString p => simp [args, List.findSome?, Arg.isNull] at hn
  | deleteError p => simp [args, List.findSome?, Arg.isNull] at hn
  | deleteString p => simp [args, List.findSome?, Arg.isNull] at hn

end CApi
end Verif

namespace Verif
namespace CApi
open Spec.CApi

/-- Values never change, whatever is called except their deletion. -/
theorem Effect.frameVal {E : Env} {m m' : Mem} {c : Call} {r : CRet} (h : Effect E m c r m') {a : Addr} {v : Val}
    (ha : FMap.get m.heap a = some (.val v)) (hf : ¬ Frees c a) : FMap.get m'.heap a = some (.val v) := by
  by_cases hadd : AddsTo c a
  · cases h with
    | @added k e p vs v' hc hp hv hk he hs =>
      subst hc
      cases hadd
      rw [ha] at hp
      cases hp
    | same hfr hh ho he hs hn => rw [hh]; exact ha
    | @freed b hb hl he hs => cases c <;> simp_all [AddsTo, Frees]
    | made hmk hx he hs => cases hmk <;> exact hadd.elim
    | err hr hok he hs => cases c <;> simp_all [AddsTo, Reports]
    | str hfr hnr he hs =>
      show FMap.get (FMap.insert m.heap _ _) a = _
      rw [FMap.get_insert, if_neg, ha]
      intro e
      have := E.fresh m.heap
      rw [e, ha] at this
      cases this
  · exact h.frame ha hf hadd

theorem runCalls_cons {E : Env} {c : Call} {cs : List Call} {m m' : Mem} {r : Except CErr Unit} (hm : MemOk m)
    (h : runCalls E (c :: cs) m = .done r m') :
    ∃ y m1, exec E c m = .done (.ok y) m1 ∧ Effect E m c y m1 ∧ runCalls E cs m1 = .done r m' := by
  simp only [runCalls] at h
  rw [bind_apply] at h
  cases hc : exec E c m with
  | panic => simp [hc] at h
  | ub => simp [hc] at h
  | done q m1 =>
    obtain ⟨y, rfl, he⟩ := exec_effect hm c hc
    rw [hc] at h
    exact ⟨y, m1, rfl, he, h⟩

/-- A call to something else leaves a collection as it is, one that adds to it appends. -/
theorem Effect.coll {E : Env} {m m' : Mem} {c : Call} {r : CRet} (h : Effect E m c r m') {p : Addr} {k : Kind} {vs : List Val}
    (hp : FMap.get m.heap p = some (.coll k vs)) (hf : ¬ Frees c p) :
    (¬ AddsTo c p ∧ FMap.get m'.heap p = some (.coll k vs)) ∨
      ∃ e v, c = .collAdd k (some e) (some p) ∧ FMap.get m.heap e = some (.val v) ∧ FMap.get m'.heap e = some (.val v) ∧
        FMap.get m'.heap p = some (.coll k (vs ++ [v])) := by
  by_cases hadd : AddsTo c p
  · cases h with
    | @added k' e q vs' v' hc hq hv hk he hs =>
      subst hc
      cases hadd
      rw [hp] at hq
      cases hq
      refine .inr ⟨e, v', rfl, hv, ?_, ?_⟩
      · show FMap.get (FMap.insert m.heap p _) e = _
        rw [FMap.get_insert, if_neg, hv]
        rintro rfl
        rw [hp] at hv
        cases hv
      · show FMap.get (FMap.insert m.heap p _) p = _
        rw [FMap.get_insert, if_pos rfl]
    | same hfr hh ho he hs hn => exact absurd hadd (hfr p).2
    | @freed b hb hl he hs => cases c <;> simp_all [AddsTo, Frees]
    | made hmk hx he hs => cases hmk <;> exact hadd.elim
    | err hr hok he hs => cases c <;> simp_all [AddsTo, Reports]
    | str hfr hnr he hs => exact absurd hadd (hfr p).2
  · exact .inl ⟨hadd, h.frame hp hf hadd⟩

end CApi
end Verif
