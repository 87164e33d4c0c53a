import Verif.Proofs.CApi

/-! Helper lemmas: what each call does to the memory, when it has a meaning. -/

set_option linter.unusedSimpArgs false
set_option linter.unusedVariables false

namespace Verif
namespace CApi
open Spec.CApi

theorem strOut_effect {E : Env} {m m' : Mem} {c : Call} {x : Run Text} {out : Ptr} {r : Except CErr CRet}
    (hx : ∀ t m1, x m = .done (.ok t) m1 → m1 = m ∧ ∀ o, out = some o → Makes E m c o (.cstr t))
    (hr : (do strOut E x out; pure CRet.unit : Run CRet) m = .done r m') : ∃ y, r = .ok y ∧ Effect E m c y m' := by
  cases r with
  | error e => simp [strOut, bind_err, bind_ok, unwrap_err, unwrap_ok, rawOut_err, rawOut_ok, give_err, give_ok, pure_apply] at hr
  | ok y =>
    simp only [strOut, bind_ok, unwrap_ok, rawOut_ok, give_ok, pure_apply] at hr
    obtain ⟨u, m3, ⟨t, m1, h1, o, m2, ⟨rfl, rfl, hv⟩, rfl⟩, h3⟩ := hr
    cases h3
    obtain ⟨rfl, hmk⟩ := hx t _ h1
    exact ⟨_, rfl, .made (hmk o rfl) hv rfl rfl⟩

theorem toBytes_effect {E : Env} {m m' : Mem} {c : Call} {k : Kind} {n : String} {p out : Ptr} {r : Except CErr CRet}
    (hfr : ∀ a, ¬ Frees c a ∧ ¬ AddsTo c a) (hc : ¬ Reports c)
    (hr : (do (valToBytes k n p out).unwrap; pure CRet.unit : Run CRet) m = .done r m') :
    ∃ y, r = .ok y ∧ Effect E m c y m' := by
  cases r with
  | error e => simp [bind_err, unwrap_err, unwrap_ok, pure_apply] at hr
  | ok y =>
    simp only [valToBytes, bind_ok, unwrap_ok, readVal_ok, copyOut_ok, pure_apply] at hr
    obtain ⟨u, m3, ⟨v, m1, ⟨rfl, _⟩, a, b, _, _, _, rfl⟩, h3⟩ := hr
    cases h3
    exact ⟨_, rfl, .same hfr rfl rfl rfl rfl (by intro hR; exact absurd hR hc)⟩

theorem num_effect {E : Env} {m m' : Mem} {c : Call} {k : Kind} {n : String} {p : Ptr} {r : Except CErr CRet}
    (hfr : ∀ a, ¬ Frees c a ∧ ¬ AddsTo c a) (hc : ¬ Reports c)
    (hr : (do let n ← (amountAsI64 k n p).unwrap; pure (CRet.num n) : Run CRet) m = .done r m') :
    ∃ y, r = .ok y ∧ Effect E m c y m' := by
  cases r with
  | error e => simp [bind_err, unwrap_err, unwrap_ok, pure_apply] at hr
  | ok y =>
    simp only [amountAsI64, bind_ok, unwrap_ok, readVal_ok, pure_apply] at hr
    obtain ⟨u, m3, ⟨v, m1, ⟨rfl, _⟩, h2⟩, h3⟩ := hr
    cases h2
    cases h3
    exact ⟨_, rfl, .same hfr rfl rfl rfl rfl (by intro hR; exact absurd hR hc)⟩

theorem free_effect {E : Env} {m m' : Mem} {c : Call} {g : Obj → Bool} {a : Addr} {r : Except CErr CRet} (hf : Frees c a)
    (hr : (do free g a; pure CRet.unit : Run CRet) m = .done r m') : ∃ y, r = .ok y ∧ Effect E m c y m' := by
  cases r with
  | error e => simp [bind_err, free_err, pure_apply] at hr
  | ok y =>
    simp only [bind_ok, free_ok, pure_apply] at hr
    obtain ⟨u, m3, ⟨⟨o, ho, _⟩, rfl⟩, h3⟩ := hr
    cases h3
    exact ⟨_, rfl, .freed hf (by simp [Live, ho]) rfl rfl⟩

theorem nothing_effect {E : Env} {m m' : Mem} {c : Call} {r : Except CErr CRet}
    (hfr : ∀ a, ¬ Frees c a ∧ ¬ AddsTo c a) (hc : ¬ Reports c)
    (hr : (do (pure () : Run Unit); pure CRet.unit : Run CRet) m = .done r m') : ∃ y, r = .ok y ∧ Effect E m c y m' := by
  cases hr
  exact ⟨_, rfl, .same hfr rfl rfl rfl rfl (by intro hR; exact absurd hR hc)⟩

theorem newCString_effect {E : Env} {m m' : Mem} {c : Call} {t : Text} {r : Except CErr CRet}
    (hfr : ∀ a, ¬ Frees c a ∧ ¬ AddsTo c a) (hnr : ¬ Reports c) (hr : (do let s ← newCString E t; pure (CRet.str s) : Run CRet) m = .done r m') : ∃ y, r = .ok y ∧ Effect E m c y m' := by
  rw [bind_apply] at hr
  unfold newCString at hr
  by_cases ht : Char.ofNat 0 ∈ t
  · simp [ht] at hr
  · simp only [ht, if_false] at hr
    cases hr
    exact ⟨_, rfl, .str (t := t) hfr hnr rfl rfl⟩

/-- Every call that ends does one of the things of `Effect`. -/
theorem exec_effect {E : Env} {m m' : Mem} (hm : MemOk m) (c : Call) {r : Except CErr CRet} (h : exec E c m = .done r m') :
    ∃ y, r = .ok y ∧ Effect E m c y m' := by
  cases c with
  | collNew k out => exact (gives_collNew E m k out).unwrap h
  | collDelete k p =>
    cases p with
    | none => exact nothing_effect (by simp [Frees, AddsTo]) (by simp [Reports]) h
    | some a => exact free_effect (show Frees (.collDelete k (some a)) a from rfl) h
  | collLen k p =>
    cases r with
    | error e => simp [exec, bind_err, unwrap_err, unwrap_ok, pure_apply] at h
    | ok y =>
      simp only [exec, collectionLen, bind_ok, unwrap_ok, readColl_ok, pure_apply] at h
      obtain ⟨u, m3, ⟨v, m1, ⟨rfl, _⟩, h2⟩, h3⟩ := h
      cases h2
      cases h3
      exact ⟨_, rfl, .same (by simp [Frees, AddsTo]) rfl rfl rfl rfl (by simp [Reports])⟩
  | collGet k p i out =>
    simp only [exec] at h
    cases hg : collectionGet E k p i out m with
    | panic => simp [hg] at h
    | ub => simp [hg] at h
    | done q m1 =>
      rw [hg] at h
      cases q with
      | ok b =>
        cases h
        simp only [collectionGet, bind_ok, readColl_ok, outPtr_ok] at hg
        obtain ⟨vs, m2, ⟨rfl, a, rfl, ha⟩, o, m3, ⟨rfl, rfl, x⟩, hg⟩ := hg
        cases hi : vs[i]? with
        | none =>
          simp only [hi, pure_apply] at hg
          cases hg
          exact ⟨_, rfl, .same (by simp [Frees, AddsTo]) rfl rfl rfl rfl (fun _ => ⟨_, _, _, _, _, rfl, ha, List.getElem?_eq_none_iff.1 hi, rfl, rfl⟩)⟩
        | some v =>
          simp only [hi, bind_ok, give_ok, pure_apply] at hg
          obtain ⟨u, m4, rfl, h3⟩ := hg
          cases h3
          exact ⟨_, rfl, .made (.collGet o ha hi) x rfl rfl⟩
      | error e =>
        have hkey : m1 = m ∧ ErrOk e := by
          simp only [collectionGet, bind_err, readColl_err, readColl_ok, outPtr_ok, outPtr_err] at hg
          rcases hg with ⟨rfl, _, rfl⟩ | ⟨vs, m2, ⟨rfl, _⟩, ⟨rfl, _, rfl⟩ | ⟨o, m3, ⟨rfl, _⟩, hg⟩⟩
          · exact ⟨rfl, by simp only [ErrOk]; decide +kernel⟩
          · exact ⟨rfl, by simp only [ErrOk]; decide +kernel⟩
          · cases hi : vs[i]? with
            | none => simp [hi, pure_apply] at hg
            | some v => simp [hi, bind_err, give_err, give_ok, pure_apply] at hg
        obtain ⟨rfl, he⟩ := hkey
        cases h
        exact ⟨_, rfl, .err trivial he rfl rfl⟩
  | collAdd k e p =>
    cases r with
    | error e => simp [exec, bind_err, unwrap_err, unwrap_ok, pure_apply] at h
    | ok y =>
      simp only [exec, collectionAdd, bind_ok, unwrap_ok, readColl_ok, readVal_ok, pure_apply] at h
      obtain ⟨u, m3, ⟨vs, m1, ⟨rfl, a, rfl, ha⟩, v, m2, ⟨rfl, b, rfl, hb, hk⟩, h2⟩, h3⟩ := h
      cases h3
      cases h2
      exact ⟨_, rfl, .added rfl ha hb hk rfl rfl⟩
  | eq k p q =>
    cases r with
    | error e => simp [exec, derefEq, bind_err, bind_ok, unwrap_err, unwrap_ok, pure_apply] at h
    | ok y =>
      simp only [exec, derefEq, bind_ok, unwrap_ok, readVal_ok, pure_apply] at h
      obtain ⟨u, m3, ⟨vs, m1, ⟨rfl, _⟩, v, m2, ⟨rfl, _⟩, h2⟩, h3⟩ := h
      cases h2
      cases h3
      exact ⟨_, rfl, .same (by simp [Frees, AddsTo]) rfl rfl rfl rfl (by simp [Reports])⟩
  | delete k p =>
    cases p with
    | none => exact nothing_effect (by simp [Frees, AddsTo]) (by simp [Reports]) h
    | some a => exact free_effect (show Frees (.delete k (some a)) a from rfl) h
  | byteArrayFromRawParts p n out => exact (gives_byteArray E m p n out).report trivial h
  | boxIdFromStr s out =>
    cases s with
    | none => simp [exec, bind_apply, cStr] at h
    | some s => exact (gives_boxIdFromStr E m s out).report trivial h
  | boxIdToStr p out =>
    refine strOut_effect ?_ h
    intro t m1 ht
    simp only [idToStr, bind_ok, readVal_ok, pure_apply] at ht
    obtain ⟨v, m2, ⟨rfl, a, rfl, ha, hk⟩, ht⟩ := ht
    cases ht
    obtain ⟨d, rfl⟩ := val_boxId hk
    exact ⟨rfl, fun o ho => by subst ho; exact .boxIdToStr o ha⟩
  | boxIdToBytes p b => exact toBytes_effect (by simp [Frees, AddsTo]) (by simp [Reports]) h
  | boxValueFromI64 n out => exact (gives_boxValueFromI64 E m n out).report trivial h
  | boxValueAsI64 p => exact num_effect (by simp [Frees, AddsTo]) (by simp [Reports]) h
  | boxValueSumOf p q out => exact (gives_boxValueSumOf E m hm p q out).report trivial h
  | tokenIdFromBoxId p out => exact (gives_tokenIdFromBoxId E m p out).unwrap h
  | tokenIdFromStr s out =>
    cases s with
    | none => simp [exec, bind_apply, cStr] at h
    | some s => exact (gives_tokenIdFromStr E m s out).report trivial h
  | tokenIdToStr p out =>
    refine strOut_effect ?_ h
    intro t m1 ht
    simp only [idToStr, bind_ok, readVal_ok, pure_apply] at ht
    obtain ⟨v, m2, ⟨rfl, a, rfl, ha, hk⟩, ht⟩ := ht
    cases ht
    obtain ⟨d, rfl⟩ := val_tokenId hk
    exact ⟨rfl, fun o ho => by subst ho; exact .tokenIdToStr o ha⟩
  | tokenAmountFromI64 n out => exact (gives_tokenAmountFromI64 E m n out).report trivial h
  | tokenAmountAsI64 p => exact num_effect (by simp [Frees, AddsTo]) (by simp [Reports]) h
  | tokenNew i n out => exact (gives_tokenNew E m i n out).unwrap h
  | tokenGetId p out => exact (gives_tokenGetId E m p out).unwrap h
  | tokenGetAmount p out => exact (gives_tokenGetAmount E m p out).unwrap h
  | secretKeyFromBytes p out => exact (gives_secretKeyFromBytes E m p out).report trivial h
  | secretKeyGenerateRandom w out => exact (gives_secretKeyGenerateRandom E m w out).unwrap h
  | secretKeyToBytes p b => exact toBytes_effect (by simp [Frees, AddsTo]) (by simp [Reports]) h
  | errorToString p =>
    cases p with
    | none => exact newCString_effect (by simp [Frees, AddsTo]) (fun h => h) h
    | some a =>
      simp only [exec] at h
      rw [bind_apply] at h
      unfold errorToString at h
      cases ha : FMap.get m.heap a with
      | none => simp [ha] at h
      | some o =>
        cases o with
        | error e =>
          simp only [ha] at h
          exact newCString_effect (c := .errorToString (some a)) (t := errText e) (by simp [Frees, AddsTo]) (fun h => h) h
        | _ => simp [ha] at h
  | deleteError p =>
    cases p with
    | none => exact nothing_effect (by simp [Frees, AddsTo]) (by simp [Reports]) h
    | some a => exact free_effect (show Frees (.deleteError (some a)) a from rfl) h
  | deleteString p =>
    cases p with
    | none => exact nothing_effect (by simp [Frees, AddsTo]) (by simp [Reports]) h
    | some a => exact free_effect (show Frees (.deleteString (some a)) a from rfl) h

theorem Makes.objOk {E : Env} {m : Mem} {c : Call} {o : Addr} {obj : Obj} (hm : MemOk m) (h : Makes E m c o obj) : ObjOk obj := by
  cases h with
  | collNew => intro v hv; cases hv
  | collGet o h hi => exact (hm _ _ h _ (List.mem_of_getElem? hi)).2
  | byteArray => trivial
  | boxIdFromStr o h hd => exact hd
  | boxIdToStr => trivial
  | @boxValueFromI64 n o h =>
    have h2 : n.toInt < 2 ^ 63 := BitVec.toInt_lt (x := n)
    refine ⟨by omega, ?_⟩
    show n.toInt.toNat < 2 ^ 63
    omega
  | boxValueSumOf o hp hq h =>
    have h1 : 10800 ≤ _ ∧ _ < 2 ^ 63 := hm _ _ hp
    exact ⟨by omega, h⟩
  | tokenIdFromBoxId o h =>
    have h1 := hm _ _ h
    exact h1
  | tokenIdFromStr o h hd => exact hd
  | tokenIdToStr => trivial
  | @tokenAmountFromI64 n o h =>
    have h2 : n.toInt < 2 ^ 63 := BitVec.toInt_lt (x := n)
    refine ⟨by omega, ?_⟩
    show n.toInt.toNat < 2 ^ 63
    omega
  | tokenNew o hp hq => exact ⟨hm _ _ hp, hm _ _ hq⟩
  | tokenGetId o h => exact (hm _ _ h).1
  | tokenGetAmount o h => exact (hm _ _ h).2
  | secretKeyFromBytes o h hn hq => simp [ObjOk, ValOk, hn]
  | secretKeyGenerateRandom w o => exact natBe_length 32 _

theorem memOk_insert {m : Mem} (hm : MemOk m) {a : Addr} {o : Obj} (ho : ObjOk o) {m' : Mem} (h : m'.heap = FMap.insert m.heap a o) :
    MemOk m' := by
  intro b o' hb
  rw [h, FMap.get_insert] at hb
  by_cases hab : a = b
  · rw [if_pos hab] at hb; cases hb; exact ho
  · rw [if_neg hab] at hb; exact hm _ _ hb

theorem Effect.memOk {E : Env} {m m' : Mem} {c : Call} {r : CRet} (hm : MemOk m) (h : Effect E m c r m') : MemOk m' := by
  cases h with
  | same hfr hh ho he hs hn => intro a o ha; rw [hh] at ha; exact hm _ _ ha
  | @freed a hf hl he hs =>
    intro b o hb
    rw [FMap.get_erase] at hb
    by_cases hab : a = b
    · rw [if_pos hab] at hb; cases hb
    · rw [if_neg hab] at hb; exact hm _ _ hb
  | @added k e p vs v hc hp hv hk he hs =>
    refine memOk_insert hm (a := p) (o := .coll k (vs ++ [v])) ?_ rfl
    intro w hw
    rcases List.mem_append.1 hw with hw | hw
    · exact hm _ _ hp w hw
    · rw [List.mem_singleton] at hw
      subst hw
      exact ⟨hk, hm _ _ hv⟩
  | made hmk hx he hs => exact memOk_insert hm (Makes.objOk hm hmk) rfl
  | @err e hr hok he hs =>
    refine memOk_insert hm (o := .error e) ?_ rfl
    cases e <;> exact hok
  | str hfr hnr he hs => exact memOk_insert hm (o := .cstr _) trivial rfl

/-- The objects not deleted and not added to stay as they are. -/
theorem Effect.frame {E : Env} {m m' : Mem} {c : Call} {r : CRet} (h : Effect E m c r m') {a : Addr} {o : Obj}
    (ha : FMap.get m.heap a = some o) (hf : ¬ Frees c a) (hadd : ¬ AddsTo c a) : FMap.get m'.heap a = some o := by
  have hne : ∀ x : FMap Addr Obj, FMap.get x a = some o → E.pick x ≠ a := by
    intro x hx e
    have := E.fresh x
    rw [e, hx] at this
    cases this
  cases h with
  | same hfr hh ho he hs hn => rw [hh]; exact ha
  | @freed b hb hl he hs =>
    show FMap.get (FMap.erase m.heap b) a = some o
    rw [FMap.get_erase, if_neg (by rintro rfl; exact hf hb)]; exact ha
  | @added k e p vs v hc hp hv hk he hs =>
    show FMap.get (FMap.insert m.heap p _) a = some o
    rw [FMap.get_insert, if_neg (by rintro rfl; subst hc; exact hadd rfl)]; exact ha
  | made hmk hx he hs =>
    show FMap.get (FMap.insert m.heap _ _) a = some o
    rw [FMap.get_insert, if_neg (hne _ ha)]; exact ha
  | err hr hok he hs =>
    show FMap.get (FMap.insert m.heap _ _) a = some o
    rw [FMap.get_insert, if_neg (hne _ ha)]; exact ha
  | str hfr hnr he hs =>
    show FMap.get (FMap.insert m.heap _ _) a = some o
    rw [FMap.get_insert, if_neg (hne _ ha)]; exact ha

/-- What is live afterwards was live before or has been handed out. -/
theorem Effect.live {E : Env} {m m' : Mem} {c : Call} {r : CRet} (h : Effect E m c r m') {a : Addr} (ha : Live m' a) :
    (Live m a ∧ ¬ Frees c a) ∨
      (¬ Live m a ∧ (errorOf r = some a ∨ stringOf r = some a ∨ ∃ o obj, Makes E m c o obj ∧ FMap.get m'.outs o = some (some a))) := by
  have hfresh : ¬ Live m (E.pick m.heap) := by simp [Live, E.fresh]
  unfold Live at ha
  cases h with
  | same hfr hh ho he hs hn =>
    rw [hh] at ha
    exact .inl ⟨ha, (hfr a).1⟩
  | @freed b hb hl he hs =>
    change FMap.get (FMap.erase m.heap b) a ≠ none at ha
    rw [FMap.get_erase] at ha
    by_cases hab : b = a
    · simp [hab] at ha
    · rw [if_neg hab] at ha
      refine .inl ⟨ha, fun hfa => hab ?_⟩
      cases c <;> simp_all [Frees]
  | @added k e p vs v hc hp hv hk he hs =>
    change FMap.get (FMap.insert m.heap p _) a ≠ none at ha
    rw [FMap.get_insert] at ha
    subst hc
    refine .inl ⟨?_, fun h => h⟩
    by_cases hab : p = a
    · subst hab; simp [Live, hp]
    · rw [if_neg hab] at ha; exact ha
  | @made o obj hmk hx he hs =>
    change FMap.get (FMap.insert m.heap _ _) a ≠ none at ha
    rw [FMap.get_insert] at ha
    by_cases hab : E.pick m.heap = a
    · subst hab
      refine .inr ⟨hfresh, .inr (.inr ⟨o, obj, hmk, ?_⟩)⟩
      show FMap.get (FMap.insert m.outs o _) o = _
      rw [FMap.get_insert, if_pos rfl]
    · rw [if_neg hab] at ha
      refine .inl ⟨ha, fun hfa => ?_⟩
      cases hmk <;> exact hfa
  | err hr hok he hs =>
    change FMap.get (FMap.insert m.heap _ _) a ≠ none at ha
    rw [FMap.get_insert] at ha
    by_cases hab : E.pick m.heap = a
    · subst hab; exact .inr ⟨hfresh, .inl he⟩
    · rw [if_neg hab] at ha
      refine .inl ⟨ha, fun hfa => ?_⟩
      cases c <;> simp_all [Frees, Reports]
  | str hfr hnr he hs =>
    change FMap.get (FMap.insert m.heap _ _) a ≠ none at ha
    rw [FMap.get_insert] at ha
    by_cases hab : E.pick m.heap = a
    · subst hab; exact .inr ⟨hfresh, .inr (.inl hs)⟩
    · rw [if_neg hab] at ha
      exact .inl ⟨ha, (hfr a).1⟩

theorem getVal {m : Mem} {k : Kind} {p : Ptr} (h : PointsTo m (.val k) p) :
    ∃ a v, p = some a ∧ FMap.get m.heap a = some (.val v) ∧ v.kind = k := by
  obtain ⟨a, o, rfl, ho, ht⟩ := h
  cases o with
  | val v => exact ⟨a, v, rfl, ho, ht⟩
  | _ => exact absurd ht (by simp [HasTy])

theorem len32 {m : Mem} (hm : MemOk m) {a : Addr} {v : Val} (h : FMap.get m.heap a = some (.val v))
    (hk : v.kind = .boxId ∨ v.kind = .secretKey) : v.digest.length = 32 := by
  have h1 : ValOk v := hm _ _ h
  cases v <;> simp_all [Val.kind, ValOk, Val.digest]

theorem newCString_ub {E : Env} {t : Text} {m : Mem} : newCString E t m = .ub ↔ False := by
  unfold newCString
  by_cases h : Char.ofNat 0 ∈ t
  · simp [h]
  · simp [h, alloc, bind_apply, pure_apply]

theorem pure_ub {α : Type} {a : α} {m : Mem} : (pure a : Run α) m = .ub ↔ False := by simp [pure_apply]

theorem cStr_ub {s : Option Text} {m : Mem} : cStr s m = .ub ↔ s = none := by cases s <;> simp [cStr]

theorem cStr_ok {s : Option Text} {m m' : Mem} {t : Text} : cStr s m = .done (.ok t) m' ↔ m' = m ∧ s = some t := by
  cases s <;> simp [cStr, eq_comm, and_comm]

theorem idToStr_ub {k : Kind} {n : String} {p : Ptr} {m : Mem} :
    idToStr k n p m = .ub ↔ p ≠ none ∧ ¬ PointsTo m (.val k) p := by
  simp only [idToStr, bind_ub, readVal_ub, pure_ub, and_false, exists_false, or_false]

theorem idToStr_ok {k : Kind} {n : String} {p : Ptr} {m m' : Mem} {t : Text} :
    idToStr k n p m = .done (.ok t) m' ↔
      m' = m ∧ ∃ a v, p = some a ∧ FMap.get m.heap a = some (.val v) ∧ v.kind = k ∧ t = Json.hexEnc v.digest := by
  simp only [idToStr, bind_ok, readVal_ok, pure_apply]
  constructor
  · rintro ⟨v, m1, ⟨rfl, a, rfl, h1, h2⟩, h⟩
    cases h
    exact ⟨rfl, a, v, rfl, h1, h2, rfl⟩
  · rintro ⟨rfl, a, v, rfl, h1, h2, rfl⟩
    exact ⟨v, m', ⟨rfl, a, rfl, h1, h2⟩, rfl⟩

theorem not_fine_out {m : Mem} {p : Ptr} (h : p = none ∨ IsVar m p) : ¬ (p ≠ none ∧ ¬ IsVar m p) := by tauto

theorem not_fine_obj {m : Mem} {t : Ty} {p : Ptr} (h : p = none ∨ PointsTo m t p) : ¬ (p ≠ none ∧ ¬ PointsTo m t p) := by tauto

/-- With pointers that are null or right no call is undefined. -/
theorem exec_no_ub {E : Env} {m : Mem} (hm : MemOk m) (c : Call) (h : ∀ x ∈ args c, x.Fine m) : exec E c m ≠ .ub := by
  intro hub
  cases c with
  | collNew k out =>
    simp only [args, List.mem_cons, List.not_mem_nil, or_false, forall_eq_or_imp, forall_eq, Arg.Fine] at h
    simp only [exec, collectionNew, bind_ub, unwrap_ub, unwrap_ok, bind_ok, outPtr_ub, outPtr_ok, give_ub, give_ok, pure_ub, and_false,
      exists_false, or_false] at hub
    exact not_fine_out h hub
  | collDelete k p =>
    simp only [args, List.mem_cons, List.not_mem_nil, or_false, forall_eq_or_imp, forall_eq, Arg.Fine] at h
    cases p with
    | none => simp [exec, collectionDelete, bind_ub, pure_ub] at hub
    | some a =>
      simp only [exec, collectionDelete, bind_ub, free_ub, pure_ub, and_false, exists_false, or_false] at hub
      rcases h with h | ⟨b, o, hb, ho, ht⟩
      · cases h
      · cases hb
        cases o with
        | coll k' vs => exact hub ⟨_, ho, by simpa [HasTy] using ht⟩
        | _ => exact absurd ht (by simp [HasTy])
  | collLen k p =>
    simp only [args, List.mem_cons, List.not_mem_nil, or_false, forall_eq_or_imp, forall_eq, Arg.Fine] at h
    simp only [exec, collectionLen, bind_ub, unwrap_ub, unwrap_ok, bind_ok, readColl_ub, readColl_ok, pure_ub, and_false, exists_false,
      or_false] at hub
    exact not_fine_obj h hub
  | collGet k p i out =>
    simp only [args, List.mem_cons, List.not_mem_nil, or_false, forall_eq_or_imp, forall_eq, Arg.Fine] at h
    simp only [exec] at hub
    cases hg : collectionGet E k p i out m with
    | done r m1 => cases r <;> simp [hg, cApiFrom, Run.fail, alloc, bind_apply, pure_apply] at hub
    | panic => simp [hg] at hub
    | ub =>
      simp only [collectionGet, bind_ub, readColl_ub, readColl_ok, outPtr_ub, outPtr_ok] at hg
      rcases hg with hg | ⟨vs, m1, ⟨rfl, _⟩, hg | ⟨o, m2, ⟨rfl, _⟩, hg⟩⟩
      · exact not_fine_obj h.1 hg
      · exact not_fine_out h.2 hg
      · cases hi : vs[i]? <;> simp [hi, bind_ub, give_ub, give_ok, pure_ub] at hg
  | collAdd k e p =>
    simp only [args, List.mem_cons, List.not_mem_nil, or_false, forall_eq_or_imp, forall_eq, Arg.Fine] at h
    simp only [exec, collectionAdd, bind_ub, unwrap_ub, unwrap_ok, bind_ok, readColl_ub, readColl_ok, readVal_ub, readVal_ok, pure_ub,
      and_false, exists_false, or_false] at hub
    rcases hub with hub | ⟨vs, m1, ⟨rfl, a, rfl, _⟩, hub | ⟨v, m2, ⟨rfl, _⟩, hub⟩⟩
    · exact not_fine_obj h.1 hub
    · exact not_fine_obj h.2 hub
    · simp [store] at hub
  | eq k p q =>
    simp only [args, List.mem_cons, List.not_mem_nil, or_false, forall_eq_or_imp, forall_eq, Arg.Fine] at h
    simp only [exec, derefEq, bind_ub, unwrap_ub, unwrap_ok, bind_ok, readVal_ub, readVal_ok, pure_ub, and_false, exists_false,
      or_false] at hub
    rcases hub with hub | ⟨vs, m1, ⟨rfl, _⟩, hub⟩
    · exact not_fine_obj h.1 hub
    · exact not_fine_obj h.2 hub
  | delete k p =>
    simp only [args, List.mem_cons, List.not_mem_nil, or_false, forall_eq_or_imp, forall_eq, Arg.Fine] at h
    cases p with
    | none => simp [exec, deletePtr, bind_ub, pure_ub] at hub
    | some a =>
      simp only [exec, deletePtr, bind_ub, free_ub, pure_ub, and_false, exists_false, or_false] at hub
      rcases h with h | ⟨b, o, hb, ho, ht⟩
      · cases h
      · cases hb
        cases o with
        | val v => exact hub ⟨_, ho, by simpa [HasTy] using ht⟩
        | _ => exact absurd ht (by simp [HasTy])
  | byteArrayFromRawParts p n out =>
    simp only [args, List.mem_cons, List.not_mem_nil, or_false, forall_eq_or_imp, forall_eq, Arg.Fine] at h
    simp only [exec, byteArrayFromRawParts, bind_ub, cApiFrom_ub, rawParts_ub, rawParts_ok, outPtr_ub, outPtr_ok, give_ub, pure_ub,
      and_false, exists_false, or_false] at hub
    rcases hub with hub | ⟨b, m1, ⟨rfl, _⟩, hub⟩
    · exact hub h.1
    · exact not_fine_out h.2 hub
  | boxIdFromStr s out =>
    simp only [args, List.mem_cons, List.not_mem_nil, or_false, forall_eq_or_imp, forall_eq, Arg.Fine] at h
    simp only [exec, boxIdFromStr, bind_ub, cStr_ub, cStr_ok, cApiFrom_ub, outPtr_ub, outPtr_ok, digestOfStr_ub, give_ub, pure_ub,
      and_false, exists_false, or_false] at hub
    rcases hub with hub | ⟨t, m1, ⟨rfl, _⟩, hub⟩
    · exact h.1 hub
    · exact not_fine_out h.2 hub
  | boxIdToStr p out =>
    simp only [args, List.mem_cons, List.not_mem_nil, or_false, forall_eq_or_imp, forall_eq, Arg.Fine] at h
    simp only [exec, strOut, bind_ub, unwrap_ub, unwrap_ok, idToStr_ub, idToStr_ok, rawOut_ub, rawOut_ok, give_ub, pure_ub, and_false,
      exists_false, or_false] at hub
    rcases hub with hub | ⟨t, m1, ⟨rfl, _⟩, hub⟩
    · exact not_fine_obj h.1 hub
    · exact hub h.2
  | boxIdToBytes p b =>
    simp only [args, List.mem_cons, List.not_mem_nil, or_false, forall_eq_or_imp, forall_eq, Arg.Fine] at h
    simp only [exec, valToBytes, bind_ub, unwrap_ub, unwrap_ok, bind_ok, readVal_ub, readVal_ok, copyOut_ub, pure_ub, and_false,
      exists_false, or_false] at hub
    rcases hub with hub | ⟨v, m1, ⟨rfl, a, rfl, ha, hk⟩, hub⟩
    · exact not_fine_obj h.1 hub
    · rw [len32 hm ha (.inl hk)] at hub; exact hub h.2
  | boxValueFromI64 n out =>
    simp only [args, List.mem_cons, List.not_mem_nil, or_false, forall_eq_or_imp, forall_eq, Arg.Fine] at h
    simp only [exec, boxValueFromI64, bind_ub, cApiFrom_ub, outPtr_ub, outPtr_ok, pure_ub, and_false, exists_false, or_false] at hub
    rcases hub with hub | ⟨o, m1, _, hub⟩
    · exact not_fine_out h hub
    · cases hn : BoxValue.tryFromU64 n.toNat <;> simp [hn, give_ub, fail_ub] at hub
  | boxValueAsI64 p =>
    simp only [args, List.mem_cons, List.not_mem_nil, or_false, forall_eq_or_imp, forall_eq, Arg.Fine] at h
    simp only [exec, amountAsI64, bind_ub, unwrap_ub, unwrap_ok, bind_ok, readVal_ub, readVal_ok, pure_ub, and_false, exists_false,
      or_false] at hub
    exact not_fine_obj h hub
  | boxValueSumOf p q out =>
    simp only [args, List.mem_cons, List.not_mem_nil, or_false, forall_eq_or_imp, forall_eq, Arg.Fine] at h
    simp only [exec, boxValueSumOf, bind_ub, cApiFrom_ub, outPtr_ub, outPtr_ok, readVal_ub, readVal_ok, pure_ub, and_false, exists_false,
      or_false] at hub
    rcases hub with hub | ⟨v, m1, ⟨rfl, _⟩, hub | ⟨w, m2, ⟨rfl, _⟩, hub | ⟨o, m3, _, hub⟩⟩⟩
    · exact not_fine_obj h.1 hub
    · exact not_fine_obj h.2.1 hub
    · exact not_fine_out h.2.2 hub
    · cases hn : sumChecked v.amount w.amount <;> simp [hn, give_ub, fail_ub] at hub
  | tokenIdFromBoxId p out =>
    simp only [args, List.mem_cons, List.not_mem_nil, or_false, forall_eq_or_imp, forall_eq, Arg.Fine] at h
    simp only [exec, tokenIdFromBoxId, bind_ub, unwrap_ub, unwrap_ok, bind_ok, readVal_ub, readVal_ok, outPtr_ub, outPtr_ok, give_ub,
      pure_ub, and_false, exists_false, or_false] at hub
    rcases hub with hub | ⟨v, m1, ⟨rfl, _⟩, hub⟩
    · exact not_fine_obj h.1 hub
    · exact not_fine_out h.2 hub
  | tokenIdFromStr s out =>
    simp only [args, List.mem_cons, List.not_mem_nil, or_false, forall_eq_or_imp, forall_eq, Arg.Fine] at h
    simp only [exec, tokenIdFromStr, bind_ub, cStr_ub, cStr_ok, cApiFrom_ub, outPtr_ub, outPtr_ok, digestOfStr_ub, give_ub, pure_ub,
      and_false, exists_false, or_false] at hub
    rcases hub with hub | ⟨t, m1, ⟨rfl, _⟩, hub⟩
    · exact h.1 hub
    · exact not_fine_out h.2 hub
  | tokenIdToStr p out =>
    simp only [args, List.mem_cons, List.not_mem_nil, or_false, forall_eq_or_imp, forall_eq, Arg.Fine] at h
    simp only [exec, strOut, bind_ub, unwrap_ub, unwrap_ok, idToStr_ub, idToStr_ok, rawOut_ub, rawOut_ok, give_ub, pure_ub, and_false,
      exists_false, or_false] at hub
    rcases hub with hub | ⟨t, m1, ⟨rfl, _⟩, hub⟩
    · exact not_fine_obj h.1 hub
    · exact hub h.2
  | tokenAmountFromI64 n out =>
    simp only [args, List.mem_cons, List.not_mem_nil, or_false, forall_eq_or_imp, forall_eq, Arg.Fine] at h
    simp only [exec, tokenAmountFromI64, bind_ub, cApiFrom_ub, outPtr_ub, outPtr_ok, pure_ub, and_false, exists_false, or_false] at hub
    rcases hub with hub | ⟨o, m1, _, hub⟩
    · exact not_fine_out h hub
    · cases hn : TokenAmount.tryFromU64 n.toNat <;> simp [hn, give_ub, fail_ub] at hub
  | tokenAmountAsI64 p =>
    simp only [args, List.mem_cons, List.not_mem_nil, or_false, forall_eq_or_imp, forall_eq, Arg.Fine] at h
    simp only [exec, amountAsI64, bind_ub, unwrap_ub, unwrap_ok, bind_ok, readVal_ub, readVal_ok, pure_ub, and_false, exists_false,
      or_false] at hub
    exact not_fine_obj h hub
  | tokenNew i n out =>
    simp only [args, List.mem_cons, List.not_mem_nil, or_false, forall_eq_or_imp, forall_eq, Arg.Fine] at h
    simp only [exec, tokenNew, bind_ub, unwrap_ub, unwrap_ok, bind_ok, readVal_ub, readVal_ok, outPtr_ub, outPtr_ok, give_ub, pure_ub,
      and_false, exists_false, or_false] at hub
    rcases hub with hub | ⟨v, m1, ⟨rfl, _⟩, hub | ⟨w, m2, ⟨rfl, _⟩, hub⟩⟩
    · exact not_fine_obj h.1 hub
    · exact not_fine_obj h.2.1 hub
    · exact not_fine_out h.2.2 hub
  | tokenGetId p out =>
    simp only [args, List.mem_cons, List.not_mem_nil, or_false, forall_eq_or_imp, forall_eq, Arg.Fine] at h
    simp only [exec, tokenGetId, bind_ub, unwrap_ub, unwrap_ok, bind_ok, readVal_ub, readVal_ok, outPtr_ub, outPtr_ok, give_ub, pure_ub,
      and_false, exists_false, or_false] at hub
    rcases hub with hub | ⟨v, m1, ⟨rfl, _⟩, hub⟩
    · exact not_fine_obj h.1 hub
    · exact not_fine_out h.2 hub
  | tokenGetAmount p out =>
    simp only [args, List.mem_cons, List.not_mem_nil, or_false, forall_eq_or_imp, forall_eq, Arg.Fine] at h
    simp only [exec, tokenGetAmount, bind_ub, unwrap_ub, unwrap_ok, bind_ok, readVal_ub, readVal_ok, outPtr_ub, outPtr_ok, give_ub,
      pure_ub, and_false, exists_false, or_false] at hub
    rcases hub with hub | ⟨v, m1, ⟨rfl, _⟩, hub⟩
    · exact not_fine_obj h.1 hub
    · exact not_fine_out h.2 hub
  | secretKeyFromBytes p out =>
    simp only [args, List.mem_cons, List.not_mem_nil, or_false, forall_eq_or_imp, forall_eq, Arg.Fine] at h
    obtain ⟨⟨a, b, rfl, hb, hn⟩, ho⟩ := h
    simp only [exec, secretKeyFromBytes, bind_ub, cApiFrom_ub, rawParts_ub, rawParts_ok, pure_ub, and_false, exists_false,
      or_false] at hub
    rcases hub with hub | ⟨c, m1, ⟨rfl, _⟩, hub⟩
    · exact hub ⟨a, b, rfl, hb, hn⟩
    · by_cases hq : beNat c < E.order
      · simp only [hq, if_true, bind_ub, rawOut_ub, give_ub, and_false, exists_false, or_false] at hub
        exact hub ho
      · simp [hq, fail_ub] at hub
  | secretKeyGenerateRandom w out =>
    simp only [args, List.mem_cons, List.not_mem_nil, or_false, forall_eq_or_imp, forall_eq, Arg.Fine] at h
    simp only [exec, secretKeyGenerateRandom, bind_ub, unwrap_ub, unwrap_ok, bind_ok, rawOut_ub, rawOut_ok, give_ub, pure_ub, and_false,
      exists_false, or_false] at hub
    exact hub h
  | secretKeyToBytes p b =>
    simp only [args, List.mem_cons, List.not_mem_nil, or_false, forall_eq_or_imp, forall_eq, Arg.Fine] at h
    simp only [exec, valToBytes, bind_ub, unwrap_ub, unwrap_ok, bind_ok, readVal_ub, readVal_ok, copyOut_ub, pure_ub, and_false,
      exists_false, or_false] at hub
    rcases hub with hub | ⟨v, m1, ⟨rfl, a, rfl, ha, hk⟩, hub⟩
    · exact not_fine_obj h.1 hub
    · rw [len32 hm ha (.inr hk)] at hub; exact hub h.2
  | errorToString p =>
    simp only [args, List.mem_cons, List.not_mem_nil, or_false, forall_eq_or_imp, forall_eq, Arg.Fine] at h
    simp only [exec, bind_ub, pure_ub, and_false, exists_false, or_false] at hub
    cases p with
    | none => simp only [errorToString, newCString_ub] at hub
    | some a =>
      rcases h with h | ⟨b, o, hb, ho, ht⟩
      · cases h
      · cases hb
        cases o with
        | error e => simp only [errorToString, ho, newCString_ub] at hub
        | _ => exact absurd ht (by simp [HasTy])
  | deleteError p =>
    simp only [args, List.mem_cons, List.not_mem_nil, or_false, forall_eq_or_imp, forall_eq, Arg.Fine] at h
    cases p with
    | none => simp [exec, deleteError, bind_ub, pure_ub] at hub
    | some a =>
      simp only [exec, deleteError, bind_ub, free_ub, pure_ub, and_false, exists_false, or_false] at hub
      rcases h with h | ⟨b, o, hb, ho, ht⟩
      · cases h
      · cases hb
        cases o with
        | error e => exact hub ⟨_, ho, rfl⟩
        | _ => exact absurd ht (by simp [HasTy])
  | deleteString p =>
    simp only [args, List.mem_cons, List.not_mem_nil, or_false, forall_eq_or_imp, forall_eq, Arg.Fine] at h
    cases p with
    | none => simp [exec, deleteString, bind_ub, pure_ub] at hub
    | some a =>
      simp only [exec, deleteString, bind_ub, free_ub, pure_ub, and_false, exists_false, or_false] at hub
      rcases h with h | ⟨b, o, hb, ho, ht⟩
      · cases h
      · cases hb
        cases o with
        | cstr e => exact hub ⟨_, ho, rfl⟩
        | _ => exact absurd ht (by simp [HasTy])

end CApi
end Verif
