import Verif.Spec.BoxBuilder
import Verif.Proofs.FMap
import Verif.Proofs.Register
import Verif.Proofs.Vlq
import Verif.Proofs.DerivationPath

/-! Helper lemmas about the box builder. -/

set_option linter.unusedSimpArgs false
set_option linter.unusedVariables false

namespace Verif.BoxBuilder
open Verif.Spec
variable {G B T : Type}

theorem lastSome_snoc {α : Type} (f : BoxCall G B → Option α) (l : List (BoxCall G B)) (x : BoxCall G B) :
    lastSome f (l ++ [x]) = (f x).or (lastSome f l) := by
  unfold lastSome
  rw [List.reverse_append, List.reverse_singleton, List.singleton_append, List.findSome?_cons]
  cases f x <;> rfl

theorem called_snoc (v : Nat) (t : T) (h : BitVec 32) (l : List (BoxCall G B)) (x : BoxCall G B) :
    called v t h (l ++ [x]) = x.on (called v t h l) := by
  unfold called
  rw [List.foldl_append]
  rfl

/-- The builder's fields are what was asked. -/
theorem called_fields (v : Nat) (t : T) (h : BitVec 32) (l : List (BoxCall G B)) :
    (called v t h l).perByte.toNat = askedPerByte l ∧ (called v t h l).value = askedValue v l ∧
    (called v t h l).tree = t ∧ (called v t h l).height = h ∧ (called v t h l).tokens = askedTokens l ∧
    (called v t h l).minting = askedMint l ∧ (called v t h l).regs.Ok ∧
    ∀ r, (called v t h l).regs.get r = askedReg l r := by
  induction l using List.reverseRecOn with
  | nil =>
    refine ⟨rfl, rfl, rfl, rfl, rfl, rfl, FMap.Ok.nil, fun r => rfl⟩
  | append_singleton l x ih =>
    obtain ⟨h1, h2, h3, h4, h5, h6, h7, h8⟩ := ih
    rw [called_snoc]
    unfold askedPerByte askedValue askedTokens askedMint askedReg at *
    simp only [lastSome_snoc, List.filterMap_append] at *
    cases x with
    | perByte p => exact ⟨rfl, h2, h3, h4, h5.trans (List.append_nil _).symm, h6, h7, h8⟩
    | value w => exact ⟨h1, rfl, h3, h4, h5.trans (List.append_nil _).symm, h6, h7, h8⟩
    | mint w => exact ⟨h1, h2, h3, h4, h5.trans (List.append_nil _).symm, rfl, h7, h8⟩
    | addToken w =>
      refine ⟨h1, h2, h3, h4, ?_, h6, h7, h8⟩
      show (called v t h l).tokens ++ [w] = _
      rw [h5]; rfl
    | setReg r c =>
      refine ⟨h1, h2, h3, h4, h5.trans (List.append_nil _).symm, h6, h7.insert r c, fun r' => ?_⟩
      show FMap.get (FMap.insert (called v t h l).regs r c) r' = _
      rw [FMap.get_insert]
      by_cases hr : r = r'
      · simp [hr]
      · simp [hr, h8]
    | delReg r =>
      refine ⟨h1, h2, h3, h4, h5.trans (List.append_nil _).symm, h6, h7.erase r, fun r' => ?_⟩
      show FMap.get (FMap.erase (called v t h l).regs r) r' = _
      rw [FMap.get_erase]
      by_cases hr : r = r'
      · simp [hr]
      · simp [hr, h8]

/-- Registers from constants. -/
theorem new_isSome (m : FMap NmId (Constant G B)) (hm : m.Ok) :
    (Regs.new m).isSome ↔ ∀ r r' : NmId, r.toNat < r'.toNat → (m.get r').isSome → (m.get r).isSome := by
  unfold Regs.new
  have hm' : FMap.Ok (m.map fun p => (p.1, RegVal.parsed p.2)) := by
    unfold FMap.Ok at hm ⊢
    simpa [Function.comp_def] using hm
  rw [Regs.ofMap_isSome _ hm']
  have hg : ∀ (m : FMap NmId (Constant G B)) r, FMap.contains (m.map fun p => (p.1, RegVal.parsed p.2)) r = (m.get r).isSome := by
    intro m r
    unfold FMap.contains
    induction m with
    | nil => rfl
    | cons p m ih =>
      obtain ⟨k, v⟩ := p
      simp only [List.map_cons, FMap.get]
      split
      · rfl
      · exact ih
  constructor
  · intro h r r' h1 h2
    rw [← hg m]
    exact h r r' h1 ((hg m r').trans h2)
  · intro h r r' h1 h2
    refine (hg m r).trans (h r r' h1 ?_)
    rw [← hg m]
    exact h2

theorem new_spec (m : FMap NmId (Constant G B)) (hm : m.Ok) (rs : Regs G B) (h : Regs.new m = some rs) :
    rs.length ≤ 6 ∧ ∀ r : NmId, rs.toMap.get r = (m.get r).map RegVal.parsed := by
  unfold Regs.new at h
  have hm' : FMap.Ok (m.map fun p => (p.1, RegVal.parsed p.2)) := by
    unfold FMap.Ok at hm ⊢
    simpa [Function.comp_def] using hm
  obtain ⟨h1, h2⟩ := Regs.ofMap_spec hm' h
  refine ⟨by rw [h1]; exact Regs.length_le_six _ hm', fun r => ?_⟩
  rw [Regs.toMap_get, h2 r]
  clear h h1 h2 hm hm'
  induction m with
  | nil => rfl
  | cons p m ih =>
    obtain ⟨k, v⟩ := p
    simp only [List.map_cons, FMap.get]
    split
    · rfl
    · exact ih

/-- Registers are determined by their map. -/
theorem regs_ext {rs rs' : Regs G B} (h : rs.length ≤ 6) (h' : rs'.length ≤ 6)
    (he : ∀ r : NmId, rs.toMap.get r = rs'.toMap.get r) : rs = rs' := by
  apply List.ext_getElem?
  intro i
  by_cases hi : i < 6
  · have : ∃ r : NmId, r.toNat - 4 = i := by
      match i, hi with
      | 0, _ => exact ⟨.R4, rfl⟩
      | 1, _ => exact ⟨.R5, rfl⟩
      | 2, _ => exact ⟨.R6, rfl⟩
      | 3, _ => exact ⟨.R7, rfl⟩
      | 4, _ => exact ⟨.R8, rfl⟩
      | 5, _ => exact ⟨.R9, rfl⟩
    obtain ⟨r, rfl⟩ := this
    rw [← Regs.toMap_get, ← Regs.toMap_get]
    exact he r
  · rw [List.getElem?_eq_none (by omega), List.getElem?_eq_none (by omega)]

theorem boxTokensOf_iff (l : List Token) (ts : Option (List Token)) :
    boxTokensOf l = some ts ↔ l.length ≤ 122 ∧ ts.getD [] = l ∧ ts ≠ some [] := by
  unfold boxTokensOf
  show (if l.isEmpty then some none else if l.length ≤ 122 then some (some l) else none) = some ts ↔ _
  cases l with
  | nil =>
    cases ts with
    | none => simp
    | some x => cases x <;> simp
  | cons a l =>
    simp only [List.isEmpty_cons, Bool.false_eq_true, if_false]
    by_cases hl : (a :: l).length ≤ 122
    · rw [if_pos hl]
      cases ts with
      | none => simp
      | some x =>
        simp only [Option.some.injEq, Option.getD_some, hl, true_and]
        constructor
        · rintro rfl; simp
        · rintro ⟨rfl, _⟩; rfl
    · rw [if_neg hl]
      constructor
      · intro h; cases h
      · rintro ⟨h, _⟩; exact absurd h hl

/-- The minting block succeeds exactly when a minted token is alone and R4, R5, R6 are unused. -/
theorem withMinted_spec (v : Nat) (t : T) (h : BitVec 32) (l : List (BoxCall G B)) :
    ((askedMint l).isSome → askedTokens l = [] ∧ askedReg l .R4 = none ∧ askedReg l .R5 = none ∧ askedReg l .R6 = none) ∧
      (∃ rs, (called v t h l).withMinted = .ok (wantedTokens l, rs) ∧ rs.Ok ∧ ∀ r, rs.get r = wantedReg l r) ∨
    ¬ ((askedMint l).isSome → askedTokens l = [] ∧ askedReg l .R4 = none ∧ askedReg l .R5 = none ∧ askedReg l .R6 = none) ∧
      (called v t h l).withMinted = .err := by
  obtain ⟨_, _, _, _, h5, h6, h7, h8⟩ := called_fields v t h l
  unfold withMinted wantedTokens wantedReg
  rw [h6, h5]
  cases hm : askedMint l with
  | none =>
    left
    refine ⟨by simp, (called v t h l).regs, ?_, h7, h8⟩
    simp only [Option.toList_none, List.map_nil, List.append_nil]
  | some mt =>
    simp only [Option.isSome_some, true_imp_iff, Option.toList_some, List.map_cons, List.map_nil, h8]
    by_cases ht : askedTokens l = []
    · rw [ht]
      cases h4 : askedReg l .R4 with
      | some _ => right; simp
      | none =>
        cases h5' : askedReg l .R5 with
        | some _ => right; simp
        | none =>
          cases h6' : askedReg l .R6 with
          | some _ => right; simp
          | none =>
            left
            refine ⟨by simp, _, rfl, ((h7.insert _ _).insert _ _).insert _ _, fun r => ?_⟩
            simp only [FMap.get_insert, h8]
            cases r <;> simp [byteColl, bytesConst]
    · right
      refine ⟨fun h => ht h.1, ?_⟩
      have : (!(askedTokens l).isEmpty) = true := by
        cases hh : askedTokens l with
        | nil => exact absurd hh ht
        | cons => rfl
      rw [if_pos this]

theorem buildUnchecked_iff (v : Nat) (t : T) (h : BitVec 32) (l : List (BoxCall G B)) (c : BoxCand G B T) :
    (called v t h l).buildUnchecked = .ok c ↔ Allowed l ∧ IsAsked v t h l c := by
  obtain ⟨_, h2, h3, h4, _, _, _, _⟩ := called_fields v t h l
  unfold buildUnchecked
  rcases withMinted_spec v t h l with ⟨hmint, rs, hw, hok, hget⟩ | ⟨hmint, hw⟩
  · rw [hw, Outcome.bind_ok]
    simp only
    have hsome := new_isSome rs hok
    simp only [hget] at hsome
    cases hn : Regs.new rs with
    | none =>
      rw [hn] at hsome
      constructor
      · intro he; cases he
      · rintro ⟨ha, _⟩
        exact absurd (hsome.2 ha.noGap) (by simp)
    | some regs =>
      rw [hn] at hsome
      obtain ⟨hlen, hregs⟩ := new_spec rs hok regs hn
      simp only [hget] at hregs
      simp only
      constructor
      · intro he
        cases hb : boxTokensOf (wantedTokens l) with
        | none => rw [hb] at he; cases he
        | some ts =>
          rw [hb] at he
          simp only [Outcome.pure_eq, Outcome.ok.injEq] at he
          subst he
          obtain ⟨hb1, hb2, hb3⟩ := (boxTokensOf_iff _ _).1 hb
          exact ⟨⟨hsome.1 rfl, hmint, hb1⟩, ⟨h2, h3, h4, hb2, hb3, hregs, hlen⟩⟩
      · rintro ⟨ha, hi⟩
        have hb := (boxTokensOf_iff (wantedTokens l) c.tokens).2 ⟨ha.tokens, hi.tokens, hi.noEmpty⟩
        rw [hb]
        have hr : c.regs = regs := regs_ext hi.regsLen hlen fun r => by rw [hi.regs, hregs]
        obtain ⟨c1, c2, c3, c4, c5⟩ := c
        have e1 := hi.value; have e2 := hi.tree; have e3 := hi.height
        simp only at e1 e2 e3 hr
        simp only [Outcome.pure_eq, Outcome.ok.injEq, BoxCand.mk.injEq]
        exact ⟨h2.trans e1.symm, h3.trans e2.symm, trivial, hr.symm, h4.trans e3.symm⟩
  · rw [hw, Outcome.bind_err]
    constructor
    · intro he; cases he
    · rintro ⟨ha, _⟩
      exact absurd ha.mint hmint

theorem buildUnchecked_no_panic (b : BoxBuilder G B T) : b.buildUnchecked ≠ .panic := by
  have hw : b.withMinted ≠ .panic := by
    unfold withMinted
    split
    · simp
    · repeat' split
      all_goals simp
  unfold buildUnchecked
  cases hh : b.withMinted with
  | panic => exact absurd hh hw
  | err => simp
  | ok p =>
    rw [Outcome.bind_ok]
    simp only
    split
    · simp
    · split <;> simp

/-- The minimal value when the product fits. -/
theorem minValueFor_fits (m : Mode) (n : Nat) (p : BitVec 32) (h : n * p.toNat < 2 ^ 63) :
    minValueFor m n p = if 10800 ≤ n * p.toNat then .ok (n * p.toNat) else .panic := by
  unfold minValueFor mulI64
  have e : ((n : Int) * (p.toNat : Int)) = ((n * p.toNat : Nat) : Int) := by push_cast; rfl
  generalize n * p.toNat = k at *
  rw [e, if_pos (by omega), Outcome.bind_ok]
  unfold BoxValue.tryFromI64
  have : (BoxValue.minRaw : Int) = 10800 := rfl
  rw [this]
  by_cases hk : 10800 ≤ k
  · rw [if_pos (by omega), if_pos hk]; simp
  · rw [if_neg (by omega), if_neg hk]

theorem minValueFor_debug (n : Nat) (p : BitVec 32) (h : ¬ n * p.toNat < 2 ^ 63) : minValueFor .debug n p = .panic := by
  unfold minValueFor mulI64
  have e : ((n : Int) * (p.toNat : Int)) = ((n * p.toNat : Nat) : Int) := by push_cast; rfl
  generalize n * p.toNat = k at *
  rw [e, if_neg (by omega)]
  rfl

/-- Number of bytes of a value. -/
def vlen (v : Nat) : Nat := (putU64 (BitVec.ofNat 64 v)).length

theorem vlen_le_iff {v : Nat} (h : v < 2 ^ 64) (k : Nat) : vlen v ≤ k + 1 ↔ v < 128 ^ (k + 1) := by
  have := putU64_length_le_iff v k (BitVec.ofNat 64 v) (by simp; omega)
  unfold vlen
  rw [this]
  simp only [BitVec.toNat_ofNat]
  rw [Nat.mod_eq_of_lt h]

theorem vlen_pos (v : Nat) : 1 ≤ vlen v := (putU64_length _).1

theorem vlen_le (v : Nat) : vlen v ≤ 10 := (putU64_length _).2

theorem vlen_le_vlen_iff {v w : Nat} (hv : v < 2 ^ 64) (hw : w < 2 ^ 64) :
    vlen v ≤ vlen w ↔ ∀ k, w < 128 ^ (k + 1) → v < 128 ^ (k + 1) := by
  constructor
  · intro h k hk
    rw [← vlen_le_iff hv]
    rw [← vlen_le_iff hw] at hk
    omega
  · intro h
    have h1 := vlen_pos w
    obtain ⟨k, hk⟩ : ∃ k, vlen w = k + 1 := ⟨vlen w - 1, by omega⟩
    have := h k ((vlen_le_iff hw k).1 (by omega))
    rw [← vlen_le_iff hv] at this
    omega

variable [DecidableEq G]

/-- The value is the first field of a candidate's bytes; the rest does not depend on it. -/
theorem ser_value (E : Sers G B T) (c : BoxCand G B T) (bytes : Bytes) (h : c.ser E = .ok bytes) :
    ∃ rest : Bytes, 3 ≤ rest.length ∧ ∀ w, BoxCand.ser E { c with value := w } = .ok (BoxValue.ser w ++ rest) := by
  unfold BoxCand.ser BoxCand.serWith at *
  obtain ⟨tb, h1, h2⟩ := Outcome.bind_eq_ok.1 h
  unfold serBoxWith at h2
  obtain ⟨n, h3, h4⟩ := Outcome.bind_eq_ok.1 h2
  obtain ⟨ts, h5, h6⟩ := Outcome.bind_eq_ok.1 h4
  obtain ⟨rs, h7, h8⟩ := Outcome.bind_eq_ok.1 h6
  refine ⟨tb ++ (putU32 c.height ++ (n ++ (ts ++ rs))), ?_, fun w => ?_⟩
  · have e1 : 1 ≤ (putU32 c.height).length := (putU64_length _).1
    have e2 : 1 ≤ n.length := by
      unfold putCount8 at h3
      split at h3
      · cases h3; simp [putU8]
      · cases h3
    have e3 : 1 ≤ rs.length := by
      unfold Regs.ser at h7
      obtain ⟨x, _, hx⟩ := Outcome.bind_eq_ok.1 h7
      cases hx
      simp [putU8]
    simp only [List.length_append]
    omega
  · simp only
    rw [h1, Outcome.bind_ok]
    unfold serBoxWith
    simp only at h3 h5 h7 ⊢
    rw [h3, Outcome.bind_ok, h5, Outcome.bind_ok, h7, Outcome.bind_ok]
    simp

theorem setValue_buildUnchecked (b : BoxBuilder G B T) (w : Nat) :
    (b.setValue w).buildUnchecked = b.buildUnchecked >>= fun c => .ok { c with value := w } := by
  have e : (b.setValue w).withMinted = b.withMinted := rfl
  unfold buildUnchecked
  rw [e]
  cases b.withMinted with
  | err => rfl
  | panic => rfl
  | ok p =>
    simp only [Outcome.bind_ok]
    cases Regs.new p.2 with
    | none => rfl
    | some rs =>
      simp only
      cases boxTokensOf p.1 <;> rfl

/-- The size as a function of the value. -/
theorem calcSize_setValue (E : Sers G B T) (b : BoxBuilder G B T) (n : Nat) (h : b.calcSize E = .ok n) :
    ∃ k, 3 ≤ k ∧ n = vlen b.value + k ∧ ∀ w, (b.setValue w).calcSize E = .ok (vlen w + k) := by
  unfold calcSize at h
  obtain ⟨c, h1, h2⟩ := Outcome.bind_eq_ok.1 h
  obtain ⟨bytes, h3, h4⟩ := Outcome.bind_eq_ok.1 h2
  obtain ⟨rest, hr, hw⟩ := ser_value E c bytes h3
  cases h4
  have hc : c.value = b.value := by
    unfold buildUnchecked at h1
    obtain ⟨p, _, hp⟩ := Outcome.bind_eq_ok.1 h1
    simp only at hp
    split at hp
    · cases hp
    · split at hp
      · cases hp
      · cases hp; rfl
  refine ⟨rest.length, hr, ?_, fun w => ?_⟩
  · have := hw c.value
    have e : ({ c with value := c.value } : BoxCand G B T) = c := rfl
    rw [e, h3] at this
    cases this
    rw [hc]
    simp [BoxValue.ser, vlen]
  · unfold calcSize
    rw [setValue_buildUnchecked, h1, Outcome.bind_ok, Outcome.bind_ok, hw w, Outcome.bind_ok]
    simp [BoxValue.ser, vlen]

theorem calcMin_eq (m : Mode) (E : Sers G B T) (b : BoxBuilder G B T) (n : Nat) (h : b.calcSize E = .ok n)
    (hf : n * b.perByte.toNat < 2 ^ 63) :
    b.calcMin m E = if 10800 ≤ n * b.perByte.toNat then .ok (n * b.perByte.toNat) else .panic := by
  unfold calcMin
  rw [h, Outcome.bind_ok, minValueFor_fits m n _ hf]

theorem build_eq (m : Mode) (E : Sers G B T) (b : BoxBuilder G B T) (c : BoxCand G B T) (bytes : Bytes)
    (h1 : b.buildUnchecked = .ok c) (h2 : c.ser E = .ok bytes) (hf : bytes.length * b.perByte.toNat < 2 ^ 63) :
    b.build m E = if 10800 ≤ bytes.length * b.perByte.toNat then
      (if bytes.length * b.perByte.toNat ≤ b.value then .ok c else .err) else .panic := by
  unfold build
  rw [h1, Outcome.bind_ok, h2, Outcome.bind_ok, minValueFor_fits m _ _ hf]
  generalize bytes.length * b.perByte.toNat = k
  by_cases hk : 10800 ≤ k
  · rw [if_pos hk, if_pos hk, Outcome.bind_ok]; rfl
  · rw [if_neg hk, if_neg hk]; rfl

theorem build_ok_iff (m : Mode) (E : Sers G B T) (b : BoxBuilder G B T) (n : Nat) (h : b.calcSize E = .ok n)
    (hf : n * b.perByte.toNat < 2 ^ 63) :
    (∃ c, b.build m E = .ok c) ↔ 10800 ≤ n * b.perByte.toNat ∧ n * b.perByte.toNat ≤ b.value := by
  unfold calcSize at h
  obtain ⟨c, h1, h2⟩ := Outcome.bind_eq_ok.1 h
  obtain ⟨bytes, h3, h4⟩ := Outcome.bind_eq_ok.1 h2
  cases h4
  rw [build_eq m E b c bytes h1 h3 hf]
  generalize bytes.length * b.perByte.toNat = k
  by_cases hk : 10800 ≤ k <;> by_cases hk' : k ≤ b.value <;> simp [hk, hk']

end Verif.BoxBuilder
