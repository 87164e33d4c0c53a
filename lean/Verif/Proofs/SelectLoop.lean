import Verif.Proofs.BoxSelector
import Mathlib.Algebra.Order.BigOperators.Group.List
import Mathlib.Algebra.Order.Ring.Nat
import Mathlib.Tactic.Push

/-! Helper lemmas: invariants of the selection loop. -/

set_option linter.unusedSimpArgs false
set_option linter.unusedVariables false

namespace Verif
open Spec

theorem takeToken_spec (left sel : TokenMap) (t : Token) (hl : Good left) (hs : Good sel)
    (ht : 1 ≤ t.2 ∧ t.2 ≤ amtMax) (hb : ∀ id, amt sel id + amt left id ≤ amtMax) :
    ∃ left' sel', takeToken (left, sel) t = .ok (left', sel') ∧ Good left' ∧ Good sel' ∧
      (∀ id, amt left' id = amt left id - (if t.1 = id then t.2 else 0)) ∧
      (∀ id, amt sel' id = amt sel id + min (amt left id) (if t.1 = id then t.2 else 0)) := by
  unfold takeToken
  cases hg : FMap.get left t.1 with
  | none =>
    refine ⟨left, sel, by simp, hl, hs, ?_, ?_⟩ <;>
    · intro id
      by_cases hid : t.1 = id
      · subst hid; simp [amt_of_none hg]
      · simp [hid]
  | some need =>
    have hneed1 := hl.pos _ _ hg
    have hneed2 := hl.le _ _ hg
    have hamt := amt_of_get hg
    have hb1 := hb t.1
    rw [hamt] at hb1
    simp only
    -- the remaining need
    obtain ⟨left', e1, gl', al'⟩ : ∃ left', reduceNeed left t need = .ok left' ∧ Good left' ∧
        (∀ id, amt left' id = amt left id - (if t.1 = id then t.2 else 0)) := by
      by_cases hle : need ≤ t.2
      · refine ⟨FMap.erase left t.1, by rw [reduceNeed, if_pos hle]; rfl, hl.erase _, fun id => ?_⟩
        rw [amt_erase]
        by_cases hid : t.1 = id
        · subst hid; simp [hamt]; omega
        · simp [hid]
      · have hc : TokenAmount.checkedSub need t.2 = some (need - t.2) :=
          (checkedSub_iff _ _ _).2 ⟨by omega, by omega⟩
        refine ⟨FMap.insert left t.1 (need - t.2), by rw [reduceNeed, if_neg hle, hc]; rfl,
          hl.insert _ _ (by omega) (by omega), fun id => ?_⟩
        rw [amt_insert]
        by_cases hid : t.1 = id
        · subst hid; simp [hamt]
        · simp [hid]
    rw [e1]
    simp only [Outcome.bind_ok]
    cases hgs : FMap.get sel t.1 with
    | none =>
      refine ⟨left', FMap.insert sel t.1 (min t.2 need), rfl, gl', hs.insert _ _ (by omega) (by omega), al', ?_⟩
      intro id
      rw [amt_insert]
      by_cases hid : t.1 = id
      · subst hid; simp [hamt, amt_of_none hgs]; omega
      · simp [hid]
    | some a =>
      have ha := amt_of_get hgs
      have hc : TokenAmount.checkedAdd a (min t.2 need) = some (a + min t.2 need) :=
        (checkedAdd_iff _ _ _).2 ⟨rfl, by omega⟩
      have := hs.pos _ _ hgs
      refine ⟨left', FMap.insert sel t.1 (a + min t.2 need), by simp [hc, ofOpt], gl',
        hs.insert _ _ (by omega) (by omega), al', ?_⟩
      intro id
      rw [amt_insert]
      by_cases hid : t.1 = id
      · subst hid; simp [hamt, ha]; omega
      · simp [hid]

theorem takeTokens_spec (ts : List Token) : ∀ (left sel : TokenMap), Good left → Good sel → ToksOk ts →
    (∀ id, amt sel id + amt left id ≤ amtMax) →
    ∃ left' sel', takeTokens (left, sel) ts = .ok (left', sel') ∧ Good left' ∧ Good sel' ∧
      (∀ id, amt left' id = amt left id - tokTotal id ts) ∧
      (∀ id, amt sel' id = amt sel id + min (amt left id) (tokTotal id ts)) := by
  induction ts with
  | nil =>
    intro left sel hl hs _ _
    exact ⟨left, sel, rfl, hl, hs, by simp [tokTotal_nil], by simp [tokTotal_nil]⟩
  | cons t ts ih =>
    intro left sel hl hs ht hb
    obtain ⟨l1, s1, e1, gl1, gs1, al1, as1⟩ := takeToken_spec left sel t hl hs (ht t (by simp)) hb
    obtain ⟨l2, s2, e2, gl2, gs2, al2, as2⟩ := ih l1 s1 gl1 gs1 (fun x hx => ht x (by simp [hx])) (by
      intro id
      have := hb id
      rw [al1, as1]; omega)
    refine ⟨l2, s2, by rw [takeTokens, e1]; exact e2, gl2, gs2, ?_, ?_⟩
    · intro id; rw [al2, al1, tokTotal_cons]; omega
    · intro id; rw [as2, as1, al1, tokTotal_cons]; omega

/-- What holds after the loop has processed the boxes `pre`. -/
structure Inv (target : Nat) (T : TokenId → Nat) (pre : List InBox) (st : SelState) : Prop where
  sub : st.selected.Sublist pre
  val : st.value = boxesValue (st.selected.map InBox.assets)
  gl : Good st.left
  left : ∀ id, amt st.left id = T id - boxesTok id (st.selected.map InBox.assets)
  hv : st.hasValueChange = true ↔ target < st.value
  ht : st.hasTokenChange = true ↔ ∃ id, T id < boxesTok id (st.selected.map InBox.assets)
  all_if_short : st.value < target → st.selected = pre
  tok_all : ∀ id, boxesTok id (st.selected.map InBox.assets) < T id →
    boxesTok id (st.selected.map InBox.assets) = boxesTok id (pre.map InBox.assets)
  change_all : (st.hasValueChange = true ∨ st.hasTokenChange = true) → st.value < target + 10800 → st.selected = pre

theorem any_left_iff {left : TokenMap} (hl : Good left) (ts : List Token) (hts : ToksOk ts) :
    (!left.isEmpty && ts.any fun t => FMap.contains left t.1) = true ↔
      ∃ id, 0 < amt left id ∧ 0 < tokTotal id ts := by
  constructor
  · intro h
    simp only [Bool.and_eq_true, List.any_eq_true] at h
    obtain ⟨_, t, ht, hc⟩ := h
    refine ⟨t.1, ?_, ?_⟩
    · unfold FMap.contains at hc
      cases hg : FMap.get left t.1 with
      | none => rw [hg] at hc; simp at hc
      | some a => rw [amt_of_get hg]; have := hl.pos _ _ hg; omega
    · have := tokTotal_mem_le (id := t.1) (a := t.2) (ts := ts) ht
      have := (hts t ht).1
      omega
  · rintro ⟨id, h1, h2⟩
    obtain ⟨t, ht, rfl⟩ := tokTotal_pos_mem h2
    simp only [Bool.and_eq_true, List.any_eq_true]
    refine ⟨?_, t, ht, ?_⟩
    · simp only [Bool.not_eq_true', Bool.eq_false_iff]
      intro he
      have := hl.isEmpty_iff.1 he t.1
      omega
    · unfold FMap.contains
      cases hg : FMap.get left t.1 with
      | none => rw [amt_of_none hg] at h1; omega
      | some a => rfl

theorem selectStep_inv (m : Mode) (target : Nat) (T : TokenId → Nat) (pre : List InBox) (st : SelState) (b : InBox)
    (hT : ∀ id, T id ≤ amtMax) (hi : Inv target T pre st) (hb : AssetsOk b.assets) (hov : st.value + b.assets.value < 2 ^ 64)
    (htb : ∀ id, tokTotal id b.assets.toks ≤ amtMax) :
    ∃ st', selectStep m target st b = .ok st' ∧ Inv target T (pre ++ [b]) st' := by
  have hts : ToksOk b.assets.toks := hb.2.2.2
  unfold selectStep
  split
  · rename_i hcond
    have hadd : addU64 m st.value b.assets.value = .ok (st.value + b.assets.value) := by
      unfold addU64; rw [if_pos hov]
    obtain ⟨l2, s2, e2, gl2, gs2, al2, as2⟩ := takeTokens_spec b.assets.toks st.left [] hi.gl Good.nil hts
      (fun id => by rw [amt_nil, Nat.zero_add]; exact hi.gl.amt_le id)
    obtain ⟨s3, e3⟩ := addTokens_total b.assets.toks [] Good.nil hts
      (fun id => by rw [amt_nil, Nat.zero_add]; exact htb id)
    obtain ⟨gs3, as3⟩ := addTokens_ok b.assets.toks [] s3 Good.nil hts e3
    have e3' : sumTokens b.assets.toks = .ok s3 := e3
    rw [hadd, e2, e3']
    simp only [Outcome.bind_ok, Outcome.pure_eq]
    refine ⟨_, rfl, ?_⟩
    have hsel : ∀ id, boxesTok id ((st.selected ++ [b]).map InBox.assets)
        = boxesTok id (st.selected.map InBox.assets) + tokTotal id b.assets.toks := by
      intro id
      rw [List.map_append, boxesTok_append]
      simp [boxesTok_cons, boxesTok_nil]
    have hval : boxesValue ((st.selected ++ [b]).map InBox.assets) = st.value + b.assets.value := by
      rw [List.map_append, boxesValue_append, ← hi.val]
      simp [boxesValue]
    have h10800 := hb.1
    have hmapeq : FMap.mapEq s3 s2 = true ↔ ∀ id, tokTotal id b.assets.toks ≤ amt st.left id := by
      rw [gs3.mapEq_iff gs2]
      constructor
      · intro h id
        have := h id
        rw [as3, as2, amt_nil] at this
        omega
      · intro h id
        have := h id
        rw [as3, as2, amt_nil]
        omega
    constructor
    · exact List.Sublist.append hi.sub (List.Sublist.refl _)
    · exact hval.symm
    · exact gl2
    · intro id
      simp only
      rw [al2, hi.left, hsel]; omega
    · simp only [Bool.or_eq_true, decide_eq_true_eq, hi.hv]
      omega
    · simp only [Bool.or_eq_true, hi.ht, Bool.not_eq_true']
      constructor
      · rintro (⟨id, h⟩ | h)
        · exact ⟨id, by rw [hsel]; omega⟩
        · rw [Bool.eq_false_iff] at h
          rw [Ne, hmapeq] at h
          push Not at h
          obtain ⟨id, h⟩ := h
          refine ⟨id, ?_⟩
          rw [hsel]
          rw [hi.left] at h
          omega
      · rintro ⟨id, h⟩
        rw [hsel] at h
        by_cases hc : T id < boxesTok id (st.selected.map InBox.assets)
        · exact Or.inl ⟨id, hc⟩
        · right
          rw [Bool.eq_false_iff, Ne, hmapeq]
          intro hall
          have := hall id
          rw [hi.left] at this
          omega
    · intro hs
      simp only at hs ⊢
      rw [hi.all_if_short (by omega)]
    · intro id h
      simp only at h ⊢
      rw [hsel] at h ⊢
      rw [List.map_append, boxesTok_append, hi.tok_all id (by omega)]
      simp [boxesTok_cons, boxesTok_nil]
    · intro _ hlt
      simp only at hlt ⊢
      rw [hi.all_if_short (by omega)]
  · rename_i hcond
    refine ⟨st, rfl, ?_⟩
    unfold selectCond at hcond
    simp only [Bool.or_eq_true, not_or, decide_eq_true_eq] at hcond
    obtain ⟨⟨hc1, hc2⟩, hc3⟩ := hcond
    have hnot : ∀ id, ¬ (0 < amt st.left id ∧ 0 < tokTotal id b.assets.toks) := by
      intro id hcon
      exact hc3 ((any_left_iff hi.gl _ hts).2 ⟨id, hcon⟩)
    refine ⟨hi.sub.trans (List.sublist_append_left _ _), hi.val, hi.gl, hi.left, hi.hv, hi.ht, ?_, ?_, ?_⟩
    · intro h; omega
    · intro id h
      have h1 := hnot id
      rw [hi.left] at h1
      rw [hi.tok_all id h, List.map_append, boxesTok_append]
      simp [boxesTok_cons, boxesTok_nil]
      omega
    · intro hflag hlt
      exfalso
      apply hc2
      simp only [Bool.and_eq_true, Bool.or_eq_true, decide_eq_true_eq]
      refine ⟨hflag, ?_⟩
      rw [if_neg hc1]
      unfold BoxValue.safeUserMin
      omega

theorem selectLoop_inv (m : Mode) (target : Nat) (T : TokenId → Nat) (post : List InBox) (hT : ∀ id, T id ≤ amtMax) :
    ∀ (pre : List InBox) (st : SelState), Inv target T pre st → (∀ b ∈ post, AssetsOk b.assets) →
    boxesValue ((pre ++ post).map InBox.assets) < 2 ^ 64 →
    (∀ b ∈ post, ∀ id, tokTotal id b.assets.toks ≤ amtMax) →
    ∃ st', selectLoop m target st post = .ok st' ∧ Inv target T (pre ++ post) st' := by
  induction post with
  | nil => intro pre st hi _ _ _; exact ⟨st, rfl, by simpa using hi⟩
  | cons b post ih =>
    intro pre st hi hok hov htok
    have hvle : st.value ≤ boxesValue (pre.map InBox.assets) := by
      rw [hi.val]
      unfold boxesValue
      exact List.Sublist.sum_le_sum (hi.sub.map _ |>.map _) (by simp)
    have hsplit : boxesValue ((pre ++ b :: post).map InBox.assets)
        = boxesValue (pre.map InBox.assets) + (b.assets.value + boxesValue (post.map InBox.assets)) := by
      simp [boxesValue]
    obtain ⟨st1, e1, i1⟩ := selectStep_inv m target T pre st b hT hi (hok b (by simp)) (by omega)
      (htok b (by simp))
    obtain ⟨st2, e2, i2⟩ := ih (pre ++ [b]) st1 i1 (fun x hx => hok x (by simp [hx]))
      (by simpa using hov) (fun x hx => htok x (by simp [hx]))
    exact ⟨st2, by rw [selectLoop, e1]; exact e2, by simpa using i2⟩

theorem Inv.init (target : Nat) (left : TokenMap) (hl : Good left) :
    Inv target (amt left) [] (SelState.mk [] 0 left false false) := by
  constructor <;> simp [boxesValue, boxesTok_nil, hl]

/-- Safety part only: the selected boxes are a sublist of the processed ones (no arithmetic assumptions). -/
theorem selectLoop_sublist (m : Mode) (target : Nat) (post : List InBox) : ∀ (pre : List InBox) (st st' : SelState),
    st.selected.Sublist pre → selectLoop m target st post = .ok st' → st'.selected.Sublist (pre ++ post) := by
  induction post with
  | nil =>
    intro pre st st' hs h
    simp only [selectLoop, Outcome.pure_eq, Outcome.ok.injEq] at h
    subst h; simpa using hs
  | cons b post ih =>
    intro pre st st' hs h
    rw [selectLoop, Outcome.bind_eq_ok] at h
    obtain ⟨st1, h1, h2⟩ := h
    have : st1.selected.Sublist (pre ++ [b]) := by
      unfold selectStep at h1
      split at h1
      · simp only [Outcome.bind_eq_ok] at h1
        obtain ⟨v', _, r, _, s, _, h⟩ := h1
        simp only [Outcome.pure_eq, Outcome.ok.injEq] at h
        subst h
        exact hs.append (List.Sublist.refl _)
      · simp only [Outcome.pure_eq, Outcome.ok.injEq] at h1
        subst h1
        exact hs.trans (List.sublist_append_left _ _)
    have := ih (pre ++ [b]) st1 st' this h2
    simpa using this

/-! ## change boxes -/

theorem removeTargets_ok (ts : List Token) : ∀ (c r : TokenMap), Good c → ToksOk ts → removeTargets c ts = .ok r →
    Good r ∧ ∀ id, amt r id + tokTotal id ts = amt c id := by
  induction ts with
  | nil =>
    intro c r hg _ h
    simp only [removeTargets, Outcome.pure_eq, Outcome.ok.injEq] at h
    subst h
    exact ⟨hg, by simp [tokTotal_nil]⟩
  | cons t ts ih =>
    intro c r hg ht h
    rw [removeTargets] at h
    have ht' : ToksOk ts := fun x hx => ht x (by simp [hx])
    cases hgt : FMap.get c t.1 with
    | none => rw [hgt] at h; simp at h
    | some s =>
      rw [hgt] at h
      simp only at h
      by_cases he : s = t.2
      · rw [if_pos he] at h
        obtain ⟨g, a⟩ := ih _ _ (hg.erase _) ht' h
        refine ⟨g, fun id => ?_⟩
        have := a id
        rw [amt_erase] at this
        rw [tokTotal_cons]
        by_cases hid : t.1 = id
        · subst hid; rw [amt_of_get hgt]; simp at this ⊢; omega
        · simp [hid] at this ⊢; omega
      · rw [if_neg he] at h
        by_cases hgtr : s > t.2
        · rw [if_pos hgtr, Outcome.bind_eq_ok] at h
          obtain ⟨a', h1, h2⟩ := h
          rw [ofOpt_eq_ok, checkedSub_iff] at h1
          have := hg.le _ _ hgt
          obtain ⟨g, a⟩ := ih _ _ (hg.insert _ _ h1.2 (by omega)) ht' h2
          refine ⟨g, fun id => ?_⟩
          have := a id
          rw [amt_insert] at this
          rw [tokTotal_cons]
          by_cases hid : t.1 = id
          · subst hid; rw [amt_of_get hgt]; simp at this ⊢; omega
          · simp [hid] at this ⊢; omega
        · rw [if_neg hgtr] at h; simp at h

theorem removeTargets_total (ts : List Token) : ∀ (c : TokenMap), Good c → ToksOk ts →
    (∀ id, tokTotal id ts ≤ amt c id) → ∃ r, removeTargets c ts = .ok r := by
  induction ts with
  | nil => intro c _ _ _; exact ⟨c, rfl⟩
  | cons t ts ih =>
    intro c hg ht hle
    have ht' : ToksOk ts := fun x hx => ht x (by simp [hx])
    have hpos := (ht t (by simp)).1
    rw [removeTargets]
    have hle1 := hle t.1
    rw [tokTotal_cons, if_pos rfl] at hle1
    cases hgt : FMap.get c t.1 with
    | none => rw [amt_of_none hgt] at hle1; omega
    | some s =>
      rw [amt_of_get hgt] at hle1
      simp only
      by_cases he : s = t.2
      · rw [if_pos he]
        apply ih _ (hg.erase _) ht'
        intro id
        have := hle id
        rw [tokTotal_cons] at this
        rw [amt_erase]
        by_cases hid : t.1 = id
        · subst hid; simp; omega
        · simp [hid] at this ⊢; omega
      · rw [if_neg he, if_pos (by omega)]
        have hc : TokenAmount.checkedSub s t.2 = some (s - t.2) := (checkedSub_iff _ _ _).2 ⟨by omega, by omega⟩
        have hs := hg.le _ _ hgt
        rw [hc]
        simp only [ofOpt, Outcome.bind_ok]
        apply ih _ (hg.insert _ _ (by omega) (by omega)) ht'
        intro id
        have := hle id
        rw [tokTotal_cons] at this
        rw [amt_insert]
        by_cases hid : t.1 = id
        · subst hid; simp; omega
        · simp [hid] at this ⊢; omega

theorem removeTargets_ne_panic (ts : List Token) : ∀ (c : TokenMap), removeTargets c ts ≠ .panic := by
  induction ts with
  | nil => intro c; simp [removeTargets]
  | cons t ts ih =>
    intro c
    rw [removeTargets]
    cases FMap.get c t.1 with
    | none => simp
    | some s =>
      simp only
      split
      · exact ih _
      · split
        · cases TokenAmount.checkedSub s t.2 <;> simp [ofOpt, ih]
        · simp

theorem safe2 : BoxValue.checkedMulU32 BoxValue.safeUserMin 2#32 = some 2000000 := by decide

theorem boxSub_iff (a b r : Nat) : BoxValue.checkedSub a b = some r ↔ r + b = a ∧ 10800 ≤ r := by
  unfold BoxValue.checkedSub BoxValue.minRaw BoxValue.minValuePerBoxByte BoxValue.minBoxSizeBytes
  split
  · split <;> simp <;> omega
  · simp; omega

theorem makeChangeLoop_ok (n : Nat) : ∀ (value : Nat) (toks : List Token) (r : List Assets), toks.length = n →
    toks ≠ [] → 10800 ≤ value → value ≤ amtMax → ToksOk toks → makeChangeLoop value toks = .ok r →
    boxesValue r = value ∧ (∀ id, boxesTok id r = tokTotal id toks) ∧ ∀ b ∈ r, AssetsOk b := by
  induction n using Nat.strongRecOn with
  | _ n ih =>
    intro value toks r hn hne hv1 hv2 htoks h
    have hlen : 1 ≤ toks.length := List.length_pos_iff.2 hne
    rw [makeChangeLoop, if_neg hne] at h
    by_cases hle : toks.length ≤ maxTokensCount
    · rw [dif_pos hle] at h
      simp only [Outcome.pure_eq, Outcome.ok.injEq] at h
      subst h
      refine ⟨by simp [boxesValue], fun id => by simp [boxesTok_cons, boxesTok_nil, Assets.toks], ?_⟩
      intro b hb
      simp only [List.mem_singleton] at hb
      subst hb
      refine ⟨hv1, hv2, ?_, htoks⟩
      intro ts hts
      simp only [Option.some.injEq] at hts
      subst hts
      unfold maxTokensCount at hle
      omega
    · rw [dif_neg hle, safe2] at h
      simp only at h
      rw [Outcome.bind_eq_ok] at h
      obtain ⟨v', h1, h2⟩ := h
      rw [Outcome.bind_eq_ok] at h2
      obtain ⟨rest, h3, h4⟩ := h2
      rw [ofOpt_eq_ok, boxSub_iff] at h1
      simp only [Outcome.pure_eq, Outcome.ok.injEq] at h4
      subst h4
      unfold maxTokensCount at hle h3 ⊢
      obtain ⟨i1, i2, i3⟩ := ih (toks.drop 122).length (by rw [List.length_drop]; omega) v' (toks.drop 122) rest rfl
        (by intro e; have := congrArg List.length e; simp at this; omega)
        (by omega) (by omega) (fun t ht => htoks t (List.mem_of_mem_drop ht)) h3
      refine ⟨?_, ?_, ?_⟩
      · have : boxesValue ({ value := 2000000, tokens := some (List.take 122 toks) } :: rest)
          = 2000000 + boxesValue rest := by simp [boxesValue]
        rw [this, i1]; omega
      · intro id
        rw [boxesTok_cons, i2, Assets.toks]
        simp only [Option.getD_some]
        rw [← tokTotal_append, List.take_append_drop]
      · intro b hb
        rcases List.mem_cons.1 hb with rfl | hb
        · refine ⟨by simp, by simp, ?_, ?_⟩
          · intro ts hts
            simp only [Option.some.injEq] at hts
            subst hts
            rw [List.length_take]; omega
          · intro t ht
            simp only [Assets.toks, Option.getD_some] at ht
            exact htoks t (List.mem_of_mem_take ht)
        · exact i3 b hb

theorem makeChangeLoop_ne_panic (n : Nat) : ∀ (value : Nat) (toks : List Token), toks.length = n →
    makeChangeLoop value toks ≠ .panic := by
  induction n using Nat.strongRecOn with
  | _ n ih =>
    intro value toks hn
    rw [makeChangeLoop]
    split
    · simp
    · split
      · simp
      · rename_i h1 h2
        rw [safe2]
        simp only
        unfold maxTokensCount at h2
        cases hc : BoxValue.checkedSub value 2000000 with
        | none => simp [ofOpt]
        | some v =>
          simp only [ofOpt, Outcome.bind_ok]
          have := ih (toks.drop 122).length (by rw [List.length_drop]; omega) v _ rfl
          unfold maxTokensCount
          cases hm : makeChangeLoop v (toks.drop 122) with
          | ok r => simp
          | err => simp
          | panic => exact absurd hm this

theorem makeChangeBoxes_ok (ord : TokenMap → List Token) (hord : ∀ m, (ord m).Perm m) (value : Nat) (c : TokenMap)
    (r : List Assets) (hg : Good c) (hv1 : 10800 ≤ value) (hv2 : value ≤ amtMax)
    (h : makeChangeBoxes ord value c = .ok r) :
    boxesValue r = value ∧ (∀ id, boxesTok id r = amt c id) ∧ ∀ b ∈ r, AssetsOk b := by
  have hlen := (hord c).length_eq
  have htoks : ToksOk (ord c) := fun t ht => hg.toksOk t ((hord c).mem_iff.1 ht)
  have htot : ∀ id, tokTotal id (ord c) = amt c id := fun id => by
    rw [tokTotal_perm id (hord c), tokTotal_map hg.ok]
  unfold makeChangeBoxes at h
  by_cases he : c.isEmpty
  · rw [if_pos he] at h
    simp only [Outcome.pure_eq, Outcome.ok.injEq] at h
    subst h
    refine ⟨by simp [boxesValue], fun id => ?_, ?_⟩
    · rw [hg.isEmpty_iff.1 he id]; simp [boxesTok_cons, boxesTok_nil, Assets.toks, tokTotal_nil]
    · intro b hb
      simp only [List.mem_singleton] at hb
      subst hb
      exact ⟨hv1, hv2, by simp, by simp [Assets.toks]⟩
  · rw [if_neg he] at h
    have hne : c ≠ [] := by simpa using he
    have hpos : 1 ≤ c.length := by cases c <;> simp_all
    by_cases hle : c.length ≤ maxTokensCount
    · rw [if_pos hle] at h
      simp only [Outcome.pure_eq, Outcome.ok.injEq] at h
      subst h
      unfold maxTokensCount at hle
      refine ⟨by simp [boxesValue], fun id => ?_, ?_⟩
      · rw [← htot]; simp [boxesTok_cons, boxesTok_nil, Assets.toks]
      · intro b hb
        simp only [List.mem_singleton] at hb
        subst hb
        refine ⟨hv1, hv2, ?_, htoks⟩
        intro ts hts
        simp only [Option.some.injEq] at hts
        subst hts
        omega
    · rw [if_neg hle] at h
      have := makeChangeLoop_ok _ value (ord c) r rfl (by
        intro e; rw [e] at hlen; simp at hlen; omega) hv1 hv2 htoks h
      exact ⟨this.1, fun id => by rw [this.2.1, htot], this.2.2⟩

theorem makeChangeBoxes_ne_panic (ord : TokenMap → List Token) (value : Nat) (c : TokenMap) :
    makeChangeBoxes ord value c ≠ .panic := by
  unfold makeChangeBoxes
  split
  · simp
  · split
    · simp
    · exact makeChangeLoop_ne_panic _ _ _ rfl

end Verif
