import Verif.Proofs.SelectLoop

/-! # C06, C07: box selection -/

set_option linter.unusedSimpArgs false
set_option linter.unusedVariables false

namespace Verif
open Spec

theorem tryFromU64_iff (v r : Nat) : BoxValue.tryFromU64 v = some r ↔ r = v ∧ 10800 ≤ v ∧ v ≤ amtMax := by
  unfold BoxValue.tryFromU64 BoxValue.withinBounds BoxValue.minRaw BoxValue.minValuePerBoxByte
    BoxValue.minBoxSizeBytes BoxValue.maxRaw amtMax
  simp only [Bool.and_eq_true, decide_eq_true_eq]
  split <;> simp_all <;> omega

theorem boxesValue_sublist {a b : List InBox} (h : a.Sublist b) :
    boxesValue (a.map InBox.assets) ≤ boxesValue (b.map InBox.assets) := by
  unfold boxesValue
  exact List.Sublist.sum_le_sum ((h.map _).map _) (by simp)

theorem boxesValue_perm {a b : List InBox} (h : a.Perm b) :
    boxesValue (a.map InBox.assets) = boxesValue (b.map InBox.assets) := by
  unfold boxesValue
  exact ((h.map _).map _).sum_nat

theorem boxesTok_perm (id : TokenId) {a b : List InBox} (h : a.Perm b) :
    boxesTok id (a.map InBox.assets) = boxesTok id (b.map InBox.assets) := by
  unfold boxesTok
  exact tokTotal_perm id (List.Perm.flatMap_right _ (h.map _))

theorem boxesTok_sublist (id : TokenId) {a b : List InBox} (h : a.Sublist b) :
    boxesTok id (a.map InBox.assets) ≤ boxesTok id (b.map InBox.assets) := by
  induction h with
  | slnil => exact le_refl _
  | cons x _ ih => simp only [List.map_cons, boxesTok_cons]; omega
  | cons_cons x _ ih => simp only [List.map_cons, boxesTok_cons]; omega

theorem checkInputPreservation_ok (m : Mode) (si sc : List Assets) (target : Nat) (tt : List Token) (u : Unit)
    (h1 : ∀ b ∈ si, AssetsOk b) (h2 : ∀ b ∈ sc, AssetsOk b) (htt : ToksOk tt)
    (hsc : boxesValue sc ≤ amtMax) (htg : target ≤ amtMax)
    (h : checkInputPreservation m si sc target tt = .ok u) :
    (∀ id, boxesTok id si = tokTotal id tt + boxesTok id sc) ∧
    boxesValue si % 2 ^ 64 = target + boxesValue sc ∧
    (m = .debug ∨ boxesValue si < 2 ^ 64 → boxesValue si = target + boxesValue sc) := by
  unfold checkInputPreservation at h
  simp only [Outcome.bind_eq_ok] at h
  obtain ⟨vi, e1, vc, e2, rhs, e3, h⟩ := h
  have hsc' := sumValue_total m sc (by unfold amtMax at hsc; omega)
  rw [hsc'] at e2
  simp only [Outcome.ok.injEq] at e2
  subst e2
  unfold addU64 at e3
  rw [if_pos (by unfold amtMax at *; omega)] at e3
  simp only [Outcome.ok.injEq] at e3
  subst e3
  have hvi := sumValueAux_ok m si 0 vi (by decide) e1
  simp only [Nat.zero_add] at hvi
  by_cases hne : vi ≠ boxesValue sc + target
  · rw [if_pos hne] at h; simp at h
  · rw [if_neg hne] at h
    simp only [Outcome.bind_eq_ok] at h
    obtain ⟨ti, f1, tc, f2, t3, f3, r, f4, h⟩ := h
    obtain ⟨g1, a1⟩ := addTokens_ok _ _ _ Good.nil (toksOk_flatMap h1) f1
    obtain ⟨g2, a2⟩ := addTokens_ok _ _ _ Good.nil (toksOk_flatMap h2) f2
    obtain ⟨g3, a3⟩ := addTokens_ok _ _ _ Good.nil htt f3
    obtain ⟨g4, a4⟩ := addTokens_ok _ _ _ Good.nil (by
      intro t ht
      rcases List.mem_append.1 ht with ht | ht
      · exact g2.toksOk t ht
      · exact g3.toksOk t ht) f4
    by_cases hm : FMap.mapEq ti r = true
    · have hall := (g1.mapEq_iff g4).1 hm
      refine ⟨fun id => ?_, by omega, ?_⟩
      · have := hall id
        rw [a1, a4, tokTotal_append, tokTotal_map g2.ok, tokTotal_map g3.ok, a2, a3] at this
        simp only [amt_nil] at this
        unfold boxesTok
        omega
      · intro hcase
        have hvi' : vi = boxesValue si := by
          rcases hcase with hm | hlt
          · exact hvi.2.1 hm
          · rw [hvi.1]; exact Nat.mod_eq_of_lt hlt
        omega
    · rw [if_neg hm] at h; simp at h

theorem selectChange_ok (ord : TokenMap → List Token) (hord : ∀ m, (ord m).Perm m) (target : Nat) (tt : List Token)
    (st : SelState) (r : List Assets) (hsel : ∀ b ∈ st.selected, AssetsOk b.assets) (htt : ToksOk tt)
    (h : selectChange ord target tt st = .ok r) : boxesValue r ≤ amtMax ∧ ∀ b ∈ r, AssetsOk b := by
  have hsel' : ∀ b ∈ st.selected.map InBox.assets, AssetsOk b := by
    intro b hb
    obtain ⟨x, hx, rfl⟩ := List.mem_map.1 hb
    exact hsel x hx
  unfold selectChange at h
  split at h
  · simp only [Outcome.pure_eq, Outcome.ok.injEq] at h
    subst h
    exact ⟨by simp [boxesValue], by simp⟩
  · simp only [Outcome.bind_eq_ok] at h
    obtain ⟨cv, e1, ct, e2, ct', e3, e4⟩ := h
    rw [ofOpt_eq_ok, tryFromU64_iff] at e1
    obtain ⟨g1, a1⟩ := addTokens_ok _ _ _ Good.nil (toksOk_flatMap hsel') e2
    obtain ⟨g2, a2⟩ := removeTargets_ok tt _ _ g1 htt e3
    obtain ⟨h1, h2, h3⟩ := makeChangeBoxes_ok ord hord cv ct' r g2 (by omega) (by omega) e4
    exact ⟨by omega, h3⟩

/-- C06.  For every input list, target and hash-map iteration order: a successful selection takes each input at most
once, is non-empty, returns only valid change boxes, and for every token id the selected total is the target total
plus the change total.  The same holds for nanoErgs, provided `u64` arithmetic does not wrap (debug build, or the
inputs total less than `2^64`). -/
theorem C06_select_conserves (m : Mode) (ord : TokenMap → List Token) (hord : ∀ m, (ord m).Perm m)
    (inputs : List InBox) (target : Nat) (tt : List Token) (sel : BoxSelection)
    (hin : ∀ b ∈ inputs, AssetsOk b.assets) (htarget : target ≤ amtMax) (htt : ToksOk tt)
    (h : select m ord inputs target tt = .ok sel) :
    sel.boxes.Subperm inputs ∧ 1 ≤ sel.boxes.length ∧ sel.boxes.length ≤ 65535 ∧
    (∀ b ∈ sel.changeBoxes, AssetsOk b) ∧
    (∀ id, boxesTok id (sel.boxes.map InBox.assets) = tokTotal id tt + boxesTok id sel.changeBoxes) ∧
    (m = .debug ∨ boxesValue (inputs.map InBox.assets) < 2 ^ 64 →
      boxesValue (sel.boxes.map InBox.assets) = target + boxesValue sel.changeBoxes) := by
  unfold select at h
  simp only [Outcome.bind_eq_ok] at h
  obtain ⟨left, e1, st, e2, h⟩ := h
  have hsub := selectLoop_sublist m target _ [] _ st (List.Sublist.refl _) e2
  simp only [List.nil_append] at hsub
  have hperm : (sortByKey (targetTokensCount left) inputs).reverse.Perm inputs :=
    (List.reverse_perm _).trans (sortByKey_perm _ _)
  have hselok : ∀ b ∈ st.selected, AssetsOk b.assets := fun b hb => hin b (hperm.mem_iff.1 (hsub.subset hb))
  have hselok' : ∀ b ∈ st.selected.map InBox.assets, AssetsOk b := by
    intro b hb
    obtain ⟨x, hx, rfl⟩ := List.mem_map.1 hb
    exact hselok x hx
  unfold selectFinish at h
  split at h
  · simp at h
  split at h
  · simp at h
  simp only [Outcome.bind_eq_ok] at h
  obtain ⟨change, e3, u, e4, h⟩ := h
  split at h
  · rename_i hlen
    simp only [Outcome.pure_eq, Outcome.ok.injEq] at h
    subst h
    obtain ⟨hcv, hcok⟩ := selectChange_ok ord hord target tt st change hselok htt e3
    obtain ⟨h1, h2, h3⟩ := checkInputPreservation_ok m _ _ _ _ u hselok' hcok htt hcv htarget e4
    refine ⟨hsub.subperm.trans hperm.subperm, hlen.1, hlen.2, hcok, h1, ?_⟩
    rintro (hm | hlt)
    · exact h3 (Or.inl hm)
    · refine h3 (Or.inr ?_)
      have h1 := boxesValue_sublist hsub
      rw [boxesValue_perm hperm] at h1
      exact lt_of_le_of_lt h1 hlt
  · simp at h

/-- Token `k` (a one byte id). -/
def tk (k : Nat) : TokenId := [BitVec.ofNat 8 k]

/-- Two inputs; the second is taken for its token, change carries the surplus. -/
example : select .release id
    [⟨[1], ⟨5000000, none⟩⟩, ⟨[2], ⟨3000000, some [(tk 1, 10), (tk 2, 4)]⟩⟩] 2000000 [(tk 1, 3), (tk 1, 2)]
    = .ok ⟨[⟨[2], ⟨3000000, some [(tk 1, 10), (tk 2, 4)]⟩⟩], [⟨1000000, some [(tk 1, 5), (tk 2, 4)]⟩]⟩ := by
  decide +kernel

/-- C06 (finding, release builds): when the selected values exceed `2^64` the running sum wraps and the selection
"succeeds" while losing `2^64` nanoErgs. -/
theorem C06_release_wraps :
    ∃ (inputs : List InBox) (target : Nat) (tt : List Token) (sel : BoxSelection),
      (∀ b ∈ inputs, AssetsOk b.assets) ∧ select .release id inputs target tt = .ok sel ∧
      boxesValue (sel.boxes.map InBox.assets) = 2 ^ 64 + (target + boxesValue sel.changeBoxes) := by
  refine ⟨[⟨[1], ⟨9223372036854775807, some [(tk 1, 1)]⟩⟩, ⟨[2], ⟨9223372036854775807, some [(tk 2, 1)]⟩⟩,
    ⟨[3], ⟨9223372036854775807, some [(tk 3, 1)]⟩⟩], 10800, [(tk 1, 1), (tk 2, 1), (tk 3, 1)],
    ⟨[⟨[3], ⟨9223372036854775807, some [(tk 3, 1)]⟩⟩, ⟨[2], ⟨9223372036854775807, some [(tk 2, 1)]⟩⟩,
      ⟨[1], ⟨9223372036854775807, some [(tk 1, 1)]⟩⟩], [⟨9223372036854765005, none⟩]⟩, ?_, ?_, ?_⟩
  · intro b hb
    simp only [List.mem_cons, List.not_mem_nil, or_false] at hb
    rcases hb with rfl | rfl | rfl <;> simp [AssetsOk, Assets.toks, tk]
  · decide +kernel
  · decide +kernel

/-- C06: selection never panics, unless (debug build) the input values overflow `u64`. -/
theorem C06_select_no_panic (m : Mode) (ord : TokenMap → List Token) (hord : ∀ m, (ord m).Perm m)
    (inputs : List InBox) (target : Nat) (tt : List Token)
    (hin : ∀ b ∈ inputs, AssetsOk b.assets) (htarget : target ≤ amtMax) (htt : ToksOk tt)
    (hm : m = .release ∨ boxesValue (inputs.map InBox.assets) < 2 ^ 63) :
    select m ord inputs target tt ≠ .panic := by
  have hadd : ∀ a b, (m = .release ∨ a + b < 2 ^ 64) → addU64 m a b ≠ .panic := by
    intro a b h
    unfold addU64
    split
    · simp
    · rcases h with rfl | h
      · simp
      · omega
  have hsum : ∀ (bs : List Assets) (acc : Nat), (m = .release ∨ acc + boxesValue bs < 2 ^ 64) →
      sumValueAux m acc bs ≠ .panic := by
    intro bs acc h
    rcases h with rfl | h
    · clear hm hadd
      induction bs generalizing acc with
      | nil => simp [sumValueAux]
      | cons b bs ih =>
        rw [sumValueAux]
        unfold addU64
        split
        · simpa using ih _
        · simpa using ih _
    · rw [sumValueAux_total m bs acc h]; simp
  -- the loop
  have htake : ∀ (ts : List Token) (st : TokenMap × TokenMap), takeTokens st ts ≠ .panic := by
    intro ts
    induction ts with
    | nil => intro st; simp [takeTokens]
    | cons t ts ih =>
      intro st
      rw [takeTokens]
      have h1 : takeToken st t ≠ .panic := by
        unfold takeToken
        cases FMap.get st.1 t.1 with
        | none => simp
        | some need =>
          simp only
          have hr : reduceNeed st.1 t need ≠ .panic := by
            unfold reduceNeed
            split
            · simp
            · cases TokenAmount.checkedSub need t.2 <;> simp [ofOpt]
          cases hrn : reduceNeed st.1 t need with
          | panic => exact absurd hrn hr
          | err => simp
          | ok l =>
            simp only [Outcome.bind_ok]
            cases FMap.get st.2 t.1 with
            | none => simp
            | some a => cases hc : TokenAmount.checkedAdd a (min t.2 need) <;> simp [ofOpt, hc]
      cases h : takeToken st t with
      | panic => exact absurd h h1
      | err => simp
      | ok r => simpa using ih r
  have hloop : ∀ (bs : List InBox) (st : SelState),
      (m = .release ∨ st.value + boxesValue (bs.map InBox.assets) < 2 ^ 63) →
      (∀ st', selectLoop m target st bs = .ok st' →
        m = .release ∨ st'.value ≤ st.value + boxesValue (bs.map InBox.assets)) ∧
      selectLoop m target st bs ≠ .panic := by
    intro bs
    induction bs with
    | nil =>
      intro st _
      refine ⟨?_, by simp [selectLoop]⟩
      intro st' h
      simp only [selectLoop, Outcome.pure_eq, Outcome.ok.injEq] at h
      subst h
      right; simp [boxesValue]
    | cons b bs ih =>
      intro st hval
      have hc : boxesValue ((b :: bs).map InBox.assets) = b.assets.value + boxesValue (bs.map InBox.assets) := by
        simp [boxesValue]
      rw [hc] at hval ⊢
      have hstep : selectStep m target st b ≠ .panic ∧ ∀ st', selectStep m target st b = .ok st' →
          m = .release ∨ st'.value ≤ st.value + b.assets.value := by
        unfold selectStep
        split
        · constructor
          · have h1 := hadd st.value b.assets.value (by rcases hval with h | h; · exact Or.inl h
                                                        · right; omega)
            cases ha : addU64 m st.value b.assets.value with
            | panic => exact absurd ha h1
            | err => simp
            | ok v =>
              simp only [Outcome.bind_ok]
              cases ht : takeTokens (st.left, []) b.assets.toks with
              | panic => exact absurd ht (htake _ _)
              | err => simp
              | ok r =>
                simp only [Outcome.bind_ok]
                cases hs : sumTokens b.assets.toks with
                | panic => exact absurd hs (addTokens_ne_panic _ _)
                | err => simp
                | ok s => simp
          · intro st' h
            simp only [Outcome.bind_eq_ok] at h
            obtain ⟨v, hv, r, _, s, _, h⟩ := h
            simp only [Outcome.pure_eq, Outcome.ok.injEq] at h
            subst h
            rcases hval with h | h
            · exact Or.inl h
            · right
              unfold addU64 at hv
              rw [if_pos (by omega)] at hv
              simp only [Outcome.ok.injEq] at hv
              simp only; omega
        · refine ⟨by simp, ?_⟩
          intro st' h
          simp only [Outcome.pure_eq, Outcome.ok.injEq] at h
          subst h; right; omega
      rw [selectLoop]
      cases hs : selectStep m target st b with
      | panic => exact absurd hs hstep.1
      | err => simp
      | ok st1 =>
        simp only [Outcome.bind_ok]
        have h1 := hstep.2 st1 hs
        have := ih st1 (by
          rcases hval with h | h
          · exact Or.inl h
          · rcases h1 with h1 | h1
            · exact Or.inl h1
            · right; omega)
        refine ⟨fun st' h => ?_, this.2⟩
        rcases this.1 st' h with h2 | h2
        · exact Or.inl h2
        · rcases h1 with h1 | h1
          · exact Or.inl h1
          · right; omega
  unfold select
  cases hl : sumTokens tt with
  | panic => exact absurd hl (addTokens_ne_panic _ _)
  | err => simp
  | ok left =>
    simp only [Outcome.bind_ok]
    have hperm : (sortByKey (targetTokensCount left) inputs).reverse.Perm inputs :=
      (List.reverse_perm _).trans (sortByKey_perm _ _)
    have := hloop (sortByKey (targetTokensCount left) inputs).reverse
      { selected := [], value := 0, left := left, hasValueChange := false, hasTokenChange := false } (by
        rw [boxesValue_perm hperm]; simpa using hm)
    cases hst : selectLoop m target
      { selected := [], value := 0, left := left, hasValueChange := false, hasTokenChange := false }
      (sortByKey (targetTokensCount left) inputs).reverse with
    | panic => exact absurd hst this.2
    | err => simp
    | ok st =>
      simp only [Outcome.bind_ok]
      have hsub := selectLoop_sublist m target _ [] _ st (List.Sublist.refl _) hst
      simp only [List.nil_append] at hsub
      have hselok : ∀ b ∈ st.selected, AssetsOk b.assets := fun b hb => hin b (hperm.mem_iff.1 (hsub.subset hb))
      unfold selectFinish
      split
      · simp
      · split
        · simp
        · have hch : selectChange ord target tt st ≠ .panic := by
            unfold selectChange
            split
            · simp
            · cases BoxValue.tryFromU64 (st.value - target) with
              | none => simp [ofOpt]
              | some cv =>
                simp only [ofOpt, Outcome.bind_ok]
                cases hs : sumTokensFromBoxes (st.selected.map InBox.assets) with
                | panic => exact absurd hs (addTokens_ne_panic _ _)
                | err => simp
                | ok ct =>
                  simp only [Outcome.bind_ok]
                  cases hr : removeTargets ct tt with
                  | panic => exact absurd hr (removeTargets_ne_panic _ _)
                  | err => simp
                  | ok ct' => simpa using makeChangeBoxes_ne_panic ord cv ct'
          cases hc : selectChange ord target tt st with
          | panic => exact absurd hc hch
          | err => simp
          | ok change =>
            simp only [Outcome.bind_ok]
            obtain ⟨hcv, hcok⟩ := selectChange_ok ord hord target tt st change hselok htt hc
            have hchk : checkInputPreservation m (st.selected.map InBox.assets) change target tt ≠ .panic := by
              unfold checkInputPreservation
              have h1 : sumValue m (st.selected.map InBox.assets) ≠ .panic := by
                apply hsum
                rcases hm with h | h
                · exact Or.inl h
                · right
                  have h2 := boxesValue_sublist hsub
                  rw [boxesValue_perm hperm] at h2
                  omega
              cases hv : sumValue m (st.selected.map InBox.assets) with
              | panic => exact absurd hv h1
              | err => simp
              | ok vi =>
                rw [sumValue_total m change (by unfold amtMax at hcv; omega)]
                simp only [Outcome.bind_ok]
                have ha : addU64 m (boxesValue change) target = .ok (boxesValue change + target) := by
                  unfold addU64; rw [if_pos (by unfold amtMax at *; omega)]
                rw [ha]
                simp only [Outcome.bind_ok]
                split
                · simp
                · cases h1 : sumTokensFromBoxes (st.selected.map InBox.assets) with
                  | panic => exact absurd h1 (addTokens_ne_panic _ _)
                  | err => simp
                  | ok ti =>
                    cases h2 : sumTokensFromBoxes change with
                    | panic => exact absurd h2 (addTokens_ne_panic _ _)
                    | err => simp
                    | ok tc =>
                      cases h3 : sumTokens tt with
                      | panic => exact absurd h3 (addTokens_ne_panic _ _)
                      | err => simp
                      | ok t3 =>
                        simp only [Outcome.bind_ok]
                        cases h4 : sumTokensFromMaps tc t3 with
                        | panic => exact absurd h4 (addTokens_ne_panic _ _)
                        | err => simp
                        | ok r => simp only [Outcome.bind_ok]; split <;> simp
            cases hck : checkInputPreservation m (st.selected.map InBox.assets) change target tt with
            | panic => exact absurd hck hchk
            | err => simp
            | ok u => simp only [Outcome.bind_ok]; split <;> simp

/-! ## C07 -/

/-- C07.  Selection succeeds whenever the inputs in total cover the target value and tokens and either all inputs
match the target exactly or one change box can be paid for out of all the inputs.
Missing with respect to the full statement: at most 122 distinct token ids occur in the inputs, i.e. one change box
is enough (the full statement is false, see `C07_many_tokens_incomplete`).  The remaining hypotheses are the ranges
of the Rust types: amounts and total value fit `i64`, at most 65535 inputs. -/
theorem C07_select_complete_partial (m : Mode) (ord : TokenMap → List Token) (hord : ∀ m, (ord m).Perm m)
    (inputs : List InBox) (target : Nat) (tt : List Token)
    (hin : ∀ b ∈ inputs, AssetsOk b.assets) (htarget : 10800 ≤ target) (htt : ToksOk tt)
    (hval : boxesValue (inputs.map InBox.assets) ≤ amtMax)
    (htok : ∀ id, boxesTok id (inputs.map InBox.assets) ≤ amtMax)
    (hlen : inputs.length ≤ 65535)
    (hids : ∃ ids : List TokenId, ids.length ≤ 122 ∧ ∀ b ∈ inputs, ∀ t ∈ b.assets.toks, t.1 ∈ ids)
    (henough : ∀ id, tokTotal id tt ≤ boxesTok id (inputs.map InBox.assets))
    (hchange : target + 10800 ≤ boxesValue (inputs.map InBox.assets) ∨
      (target = boxesValue (inputs.map InBox.assets) ∧
        ∀ id, tokTotal id tt = boxesTok id (inputs.map InBox.assets))) :
    ∃ sel, select m ord inputs target tt = .ok sel := by
  obtain ⟨left, hleft⟩ := addTokens_total tt [] Good.nil htt
    (fun id => by rw [amt_nil, Nat.zero_add]; exact le_trans (henough id) (htok id))
  obtain ⟨gl, al⟩ := addTokens_ok tt [] left Good.nil htt hleft
  simp only [amt_nil, Nat.zero_add] at al
  have hperm : (sortByKey (targetTokensCount left) inputs).reverse.Perm inputs :=
    (List.reverse_perm _).trans (sortByKey_perm _ _)
  generalize hsorted : (sortByKey (targetTokensCount left) inputs).reverse = sorted at hperm
  have hsok : ∀ b ∈ sorted, AssetsOk b.assets := fun b hb => hin b (hperm.mem_iff.1 hb)
  have htokb : ∀ b ∈ sorted, ∀ id, tokTotal id b.assets.toks ≤ amtMax := by
    intro b hb id
    obtain ⟨l1, l2, rfl⟩ := List.append_of_mem (hperm.mem_iff.1 hb)
    have := htok id
    rw [List.map_append, boxesTok_append, List.map_cons, boxesTok_cons] at this
    omega
  obtain ⟨st, hst, inv⟩ := selectLoop_inv m target (amt left) sorted (fun id => gl.amt_le id) [] _
    (Inv.init target left gl) hsok (by
      rw [List.nil_append, boxesValue_perm hperm]; unfold amtMax at hval; omega) htokb
  rw [List.nil_append] at inv
  -- facts at the end of the loop
  have hge : target ≤ st.value := by
    by_contra hcon
    have := inv.val
    rw [inv.all_if_short (by omega), boxesValue_perm hperm] at this
    rcases hchange with h | ⟨h, _⟩ <;> omega
  have htokge : ∀ id, tokTotal id tt ≤ boxesTok id (st.selected.map InBox.assets) := by
    intro id
    by_contra hcon
    have h1 := inv.tok_all id (by rw [al]; omega)
    rw [boxesTok_perm id hperm] at h1
    have := henough id
    omega
  have hleft0 : st.left.isEmpty = true := by
    rw [inv.gl.isEmpty_iff]
    intro id
    rw [inv.left, al]
    have := htokge id
    omega
  have hvle : st.value ≤ boxesValue (inputs.map InBox.assets) := by
    rw [inv.val, ← boxesValue_perm hperm]
    exact boxesValue_sublist inv.sub
  have hselok : ∀ b ∈ st.selected.map InBox.assets, AssetsOk b := by
    intro b hb
    obtain ⟨x, hx, rfl⟩ := List.mem_map.1 hb
    exact hsok x (inv.sub.subset hx)
  have hseltok : ∀ id, boxesTok id (st.selected.map InBox.assets) ≤ amtMax := by
    intro id
    refine le_trans ?_ (htok id)
    rw [← boxesTok_perm id hperm]
    exact boxesTok_sublist id inv.sub
  -- change boxes
  have hchg : ∃ change, selectChange ord target tt st = .ok change ∧
      boxesValue change + target = st.value ∧ (∀ b ∈ change, AssetsOk b) ∧
      ∀ id, boxesTok id change + tokTotal id tt = boxesTok id (st.selected.map InBox.assets) := by
    unfold selectChange
    by_cases hno : (!st.hasValueChange && !st.hasTokenChange) = true
    · rw [if_pos hno]
      simp only [Bool.and_eq_true, Bool.not_eq_true'] at hno
      have h1 : ¬ target < st.value := fun h => by
        have := inv.hv.2 h; rw [hno.1] at this; simp at this
      have h2 : ∀ id, ¬ amt left id < boxesTok id (st.selected.map InBox.assets) := fun id h => by
        have := inv.ht.2 ⟨id, h⟩; rw [hno.2] at this; simp at this
      refine ⟨[], rfl, by simp [boxesValue]; omega, by simp, fun id => ?_⟩
      have := h2 id
      have := htokge id
      rw [al] at *
      rw [boxesTok_nil]; omega
    · rw [if_neg hno]
      have hflag : st.hasValueChange = true ∨ st.hasTokenChange = true := by
        cases h1 : st.hasValueChange <;> cases h2 : st.hasTokenChange <;> simp_all
      have hcv : target + 10800 ≤ st.value := by
        by_contra hcon
        have hall := inv.change_all hflag (by omega)
        have hv := inv.val
        rw [hall, boxesValue_perm hperm] at hv
        rcases hchange with h | ⟨h1, h2⟩
        · omega
        · rcases hflag with hf | hf
          · have := inv.hv.1 hf; omega
          · obtain ⟨id, hid⟩ := inv.ht.1 hf
            rw [hall, boxesTok_perm id hperm, al, h2] at hid
            omega
      have e1 : BoxValue.tryFromU64 (st.value - target) = some (st.value - target) :=
        (tryFromU64_iff _ _).2 ⟨rfl, by omega, by omega⟩
      obtain ⟨ct, e2⟩ := addTokens_total _ [] Good.nil (toksOk_flatMap hselok)
        (fun id => by rw [amt_nil, Nat.zero_add]; exact hseltok id)
      obtain ⟨g2, a2⟩ := addTokens_ok _ _ _ Good.nil (toksOk_flatMap hselok) e2
      simp only [amt_nil, Nat.zero_add] at a2
      obtain ⟨ct', e3⟩ := removeTargets_total tt ct g2 htt (fun id => by rw [a2]; exact htokge id)
      obtain ⟨g3, a3⟩ := removeTargets_ok tt ct ct' g2 htt e3
      have hctlen : ct'.length ≤ maxTokensCount := by
        obtain ⟨ids, hl, hids⟩ := hids
        have hsubp : (ct'.map Prod.fst).Subperm ids := by
          apply List.Nodup.subperm g3.ok
          intro id hid
          have hpos : 0 < amt ct' id := by
            cases hgt : FMap.get ct' id with
            | none => exact absurd hid ((FMap.get_eq_none_iff _ _).1 hgt)
            | some v => rw [amt_of_get hgt]; exact g3.pos _ _ hgt
          have := a3 id
          rw [a2] at this
          obtain ⟨t, ht, rfl⟩ := tokTotal_pos_mem (id := id)
            (ts := (st.selected.map InBox.assets).flatMap Assets.toks) (by omega)
          obtain ⟨b, hb, htb⟩ := List.mem_flatMap.1 ht
          obtain ⟨x, hx, rfl⟩ := List.mem_map.1 hb
          exact hids x (hperm.mem_iff.1 (inv.sub.subset hx)) t htb
        have := hsubp.length_le
        simp only [List.length_map] at this
        unfold maxTokensCount
        omega
      have e4 : ∃ r, makeChangeBoxes ord (st.value - target) ct' = .ok r := by
        unfold makeChangeBoxes
        by_cases he : ct'.isEmpty
        · rw [if_pos he]; exact ⟨_, rfl⟩
        · rw [if_neg he, if_pos hctlen]; exact ⟨_, rfl⟩
      obtain ⟨r, e4⟩ := e4
      obtain ⟨h1, h2, h3⟩ := makeChangeBoxes_ok ord hord _ ct' r g3 (by omega) (by omega) e4
      refine ⟨r, ?_, by omega, h3, ?_⟩
      · rw [e1]
        simp only [ofOpt, Outcome.bind_ok]
        have e2' : sumTokensFromBoxes (st.selected.map InBox.assets) = .ok ct := e2
        rw [e2']
        simp only [Outcome.bind_ok]
        rw [e3]
        exact e4
      · intro id
        rw [h2, a3, a2]; rfl
  obtain ⟨change, hc1, hc2, hc3, hc4⟩ := hchg
  -- the preservation check passes
  have hchk : checkInputPreservation m (st.selected.map InBox.assets) change target tt = .ok () := by
    unfold checkInputPreservation
    rw [sumValue_total m _ (by rw [← inv.val]; unfold amtMax at hval; omega),
      sumValue_total m change (by unfold amtMax at hval; omega)]
    simp only [Outcome.bind_ok]
    have ha : addU64 m (boxesValue change) target = .ok (boxesValue change + target) := by
      unfold addU64; rw [if_pos (by unfold amtMax at hval; omega)]
    rw [ha]
    simp only [Outcome.bind_ok]
    rw [if_neg (by rw [← inv.val]; omega)]
    obtain ⟨ti, f1⟩ := addTokens_total _ [] Good.nil (toksOk_flatMap hselok)
      (fun id => by rw [amt_nil, Nat.zero_add]; exact hseltok id)
    obtain ⟨g1, a1⟩ := addTokens_ok _ _ _ Good.nil (toksOk_flatMap hselok) f1
    obtain ⟨tc, f2⟩ := addTokens_total _ [] Good.nil (toksOk_flatMap hc3)
      (fun id => by
        rw [amt_nil, Nat.zero_add]
        have h1 := hc4 id; have h2 := hseltok id
        unfold boxesTok at h1 h2; omega)
    obtain ⟨g2, a2⟩ := addTokens_ok _ _ _ Good.nil (toksOk_flatMap hc3) f2
    simp only [amt_nil, Nat.zero_add] at a1 a2
    have hmaps : ToksOk (tc ++ left) := by
      intro t ht
      rcases List.mem_append.1 ht with ht | ht
      · exact g2.toksOk t ht
      · exact gl.toksOk t ht
    have hsum : ∀ id, tokTotal id (tc ++ left) = boxesTok id (st.selected.map InBox.assets) := by
      intro id
      rw [tokTotal_append, tokTotal_map g2.ok, tokTotal_map gl.ok, a2, al]
      exact hc4 id
    obtain ⟨r, f4⟩ := addTokens_total (tc ++ left) [] Good.nil hmaps
      (fun id => by rw [amt_nil, Nat.zero_add, hsum]; exact hseltok id)
    obtain ⟨g4, a4⟩ := addTokens_ok _ _ _ Good.nil hmaps f4
    simp only [amt_nil, Nat.zero_add] at a4
    have f1' : sumTokensFromBoxes (st.selected.map InBox.assets) = .ok ti := f1
    have f2' : sumTokensFromBoxes change = .ok tc := f2
    have f3' : sumTokens tt = .ok left := hleft
    have f4' : sumTokensFromMaps tc left = .ok r := f4
    rw [f1', f2', f3']
    simp only [Outcome.bind_ok]
    rw [f4']
    simp only [Outcome.bind_ok]
    rw [if_pos ((g1.mapEq_iff g4).2 (fun id => by rw [a1, a4, hsum]; rfl))]
    rfl
  have hlen1 : 1 ≤ st.selected.length := by
    cases hs : st.selected with
    | nil => have := inv.val; rw [hs] at this; simp [boxesValue] at this; omega
    | cons => simp
  have hlen2 : st.selected.length ≤ 65535 := by
    have := inv.sub.length_le
    rw [hperm.length_eq] at this
    omega
  refine ⟨{ boxes := st.selected, changeBoxes := change }, ?_⟩
  unfold select
  have hleft' : sumTokens tt = .ok left := hleft
  rw [hleft']
  simp only [Outcome.bind_ok]
  rw [hsorted, hst]
  simp only [Outcome.bind_ok]
  unfold selectFinish
  rw [if_neg (by omega), if_neg (by simp [hleft0]), hc1]
  simp only [Outcome.bind_ok]
  rw [hchk]
  simp only [Outcome.bind_ok]
  rw [if_pos ⟨hlen1, hlen2⟩]
  rfl

example : select .debug id [⟨[1], ⟨5000000, none⟩⟩, ⟨[2], ⟨3000000, some [(tk 1, 10)]⟩⟩] 7989200 [(tk 1, 10)]
    = .ok ⟨[⟨[2], ⟨3000000, some [(tk 1, 10)]⟩⟩, ⟨[1], ⟨5000000, none⟩⟩], [⟨10800, none⟩]⟩ := by decide +kernel

/-- One hundred and twenty-two distinct tokens. -/
def manyTokens : List Token := (List.range 122).map fun k => (tk k, 1)

/-- C07 is false in general: with 123 distinct tokens among the inputs a second change box is needed, but the loop
stops as soon as the change reaches 1000000 nanoErg, so `select` fails although the untouched first input alone
would pay for it; the same inputs in a different order succeed. -/
theorem C07_many_tokens_incomplete :
    select .debug id [⟨[3], ⟨1000000000, none⟩⟩, ⟨[2], ⟨1000000000, some [(tk 200, 1)]⟩⟩,
      ⟨[1], ⟨1000000000, some manyTokens⟩⟩] 1999000000 [] = .err ∧
    ∃ sel, select .debug id [⟨[2], ⟨1000000000, some [(tk 200, 1)]⟩⟩,
      ⟨[1], ⟨1000000000, some manyTokens⟩⟩, ⟨[3], ⟨1000000000, none⟩⟩] 1999000000 [] = .ok sel := by
  constructor
  · decide +kernel
  · have h : (match select .debug id [⟨[2], ⟨1000000000, some [(tk 200, 1)]⟩⟩,
      ⟨[1], ⟨1000000000, some manyTokens⟩⟩, ⟨[3], ⟨1000000000, none⟩⟩] 1999000000 [] with
      | .ok _ => true | _ => false) = true := by decide +kernel
    revert h
    cases select .debug id [⟨[2], ⟨1000000000, some [(tk 200, 1)]⟩⟩,
      ⟨[1], ⟨1000000000, some manyTokens⟩⟩, ⟨[3], ⟨1000000000, none⟩⟩] 1999000000 [] with
    | ok sel => intro _; exact ⟨sel, rfl⟩
    | err => simp
    | panic => simp

end Verif
