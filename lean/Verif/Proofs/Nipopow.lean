import Verif.Spec.Nipopow
import Verif.Proofs.FMap
import Mathlib.Tactic.Ring

set_option linter.unusedSimpArgs false
set_option linter.unusedVariables false

namespace Verif
open Merkle Spec
variable {G : Type}

/-! ## Packing -/

theorem incU8_ok (m : Mode) {n : Nat} (h : n < 255) : incU8 m n = .ok (n + 1) := by
  unfold incU8; rw [if_pos (by omega)]

theorem packLoop_run (m : Mode) (j : Nat) : ∀ (rest : List Bytes) (ix c : Nat) (cur : Bytes), c + j ≤ 255 →
    packLoop m (List.replicate j cur ++ rest) ix c cur = packLoop m rest ix (c + j) cur := by
  induction j with
  | zero => intro rest ix c cur h; rfl
  | succ j ih =>
    intro rest ix c cur h
    rw [List.replicate_succ, List.cons_append]
    simp only [packLoop]
    rw [if_pos trivial, incU8_ok m (by omega)]
    show packLoop m _ ix (c + 1) cur = _
    rw [ih _ _ _ _ (by omega)]
    congr 1; omega

/-- In a debug build a run of more than 255 panics. -/
theorem packLoop_long (j : Nat) : ∀ (rest : List Bytes) (ix c : Nat) (cur : Bytes), c ≤ 255 → 255 < c + j →
    packLoop .debug (List.replicate j cur ++ rest) ix c cur = .panic := by
  induction j with
  | zero => intro rest ix c cur h h'; omega
  | succ j ih =>
    intro rest ix c cur h h'
    rw [List.replicate_succ, List.cons_append]
    simp only [packLoop]
    rw [if_pos trivial]
    by_cases hc : c = 255
    · subst hc; rfl
    · rw [incU8_ok _ (by omega)]
      exact ih _ _ _ _ (by omega) (by omega)

/-- The fields of the runs, numbered from `ix`. -/
def packedFrom (ix : Nat) : List (Nat × Bytes) → List ExtField
  | [] => []
  | r :: rs => packRun ix r.1 r.2 :: packedFrom (ix + 1) rs

theorem packLoop_spec (m : Mode) : ∀ (rs : List (Nat × Bytes)) (ix c : Nat) (cur : Bytes),
    (∀ r ∈ rs, 1 ≤ r.1 ∧ r.1 ≤ 255) → ((c, cur) :: rs).IsChain (fun a b => a.2 ≠ b.2) → ix + rs.length ≤ 255 →
    packLoop m (expandRuns rs) ix c cur = .ok (packedFrom ix ((c, cur) :: rs)) := by
  intro rs
  induction rs with
  | nil => intro ix c cur _ _ _; rfl
  | cons r rs ih =>
    intro ix c cur hc hd hl
    obtain ⟨n, id⟩ := r
    obtain ⟨h1, h2⟩ := hc (n, id) (by simp)
    rw [List.isChain_cons_cons] at hd
    simp only [List.length_cons] at hl
    obtain ⟨k, rfl⟩ : ∃ k, n = k + 1 := ⟨n - 1, by simp only at h1; omega⟩
    simp only [expandRuns, List.flatMap_cons, List.replicate_succ, List.cons_append] at *
    simp only [packLoop]
    rw [if_neg (Ne.symm hd.1), incU8_ok m (by omega)]
    show (packLoop m _ (ix + 1) 1 id >>= _) = _
    rw [packLoop_run m k _ _ _ _ (by omega), Nat.add_comm 1 k,
      ih (ix + 1) (k + 1) id (fun r hr => hc r (by simp [hr])) hd.2 (by omega)]
    rfl

theorem packLoop_debug (rs : List (Nat × Bytes)) : ∀ (ix c : Nat) (cur : Bytes), ix ≤ 255 →
    (∀ r ∈ rs, 1 ≤ r.1) → ((c, cur) :: rs).IsChain (fun a b => a.2 ≠ b.2) →
    ((∃ r ∈ rs, 255 < r.1) ∨ 255 < ix + rs.length) → packLoop .debug (expandRuns rs) ix c cur = .panic := by
  induction rs with
  | nil => intro ix c cur h1 _ _ h; simp at h; omega
  | cons r rs ih =>
    intro ix c cur hix hc hd hl
    obtain ⟨n, id⟩ := r
    have h1 := hc (n, id) (by simp)
    rw [List.isChain_cons_cons] at hd
    obtain ⟨k, rfl⟩ : ∃ k, n = k + 1 := ⟨n - 1, by simp only at h1; omega⟩
    simp only [expandRuns, List.flatMap_cons, List.replicate_succ, List.cons_append] at *
    simp only [packLoop]
    rw [if_neg (Ne.symm hd.1)]
    by_cases hx : ix = 255
    · subst hx; rfl
    rw [incU8_ok _ (by omega)]
    show (packLoop .debug _ (ix + 1) 1 id >>= _) = _
    by_cases hk : k + 1 ≤ 255
    · rw [packLoop_run _ k _ _ _ _ (by omega), ih (ix + 1) (1 + k) id (by omega) (fun r hr => hc r (by simp [hr]))]
      · rfl
      · cases rs with
        | nil => simp
        | cons r' rs' => rw [List.isChain_cons_cons] at *; exact hd.2
      · rcases hl with ⟨r, hr, h⟩ | h
        · rcases List.mem_cons.1 hr with rfl | hr
          · simp only at h; omega
          · exact .inl ⟨r, hr, h⟩
        · simp only [List.length_cons] at h; right; omega
    · rw [packLoop_long k _ _ _ _ (by omega) (by omega)]; rfl

theorem unpack_packed (rs : List (Nat × Bytes)) : ∀ ix, (∀ r ∈ rs, r.1 ≤ 255 ∧ r.2.length = 32) →
    unpackInterlinks (packedFrom ix rs) = .ok (expandRuns rs) := by
  induction rs with
  | nil => intro ix _; rfl
  | cons r rs ih =>
    intro ix h
    obtain ⟨n, id⟩ := r
    obtain ⟨h1, h2⟩ := h (n, id) (by simp)
    simp only at h1 h2
    simp only [packedFrom, unpackInterlinks, packRun]
    rw [if_pos trivial, if_pos h2, ih (ix + 1) (fun r hr => h r (by simp [hr]))]
    show Outcome.ok _ = _
    simp only [expandRuns, List.flatMap_cons, BitVec.toNat_ofNat]
    rw [Nat.mod_eq_of_lt (by omega)]

theorem packed_prefix (rs : List (Nat × Bytes)) : ∀ ix, ∀ f ∈ packedFrom ix rs, f.k0 = interlinkPrefix := by
  induction rs with
  | nil => intro ix f hf; simp [packedFrom] at hf
  | cons r rs ih =>
    intro ix f hf
    simp only [packedFrom, List.mem_cons] at hf
    rcases hf with rfl | hf
    · rfl
    · exact ih _ f hf

theorem packed_size (rs : List (Nat × Bytes)) : ∀ ix, (∀ r ∈ rs, r.2.length = 32) → ∀ f ∈ packedFrom ix rs, f.value.length = 33 := by
  induction rs with
  | nil => intro ix _ f hf; simp [packedFrom] at hf
  | cons r rs ih =>
    intro ix h f hf
    simp only [packedFrom, List.mem_cons] at hf
    rcases hf with rfl | hf
    · simp [packRun, h r (by simp)]
    · exact ih _ (fun r hr => h r (by simp [hr])) f hf

theorem packed_get (rs : List (Nat × Bytes)) : ∀ ix i (f : ExtField), (packedFrom ix rs)[i]? = some f → i < rs.length ∧ f.k1 = BitVec.ofNat 8 (ix + i) := by
  induction rs with
  | nil => intro ix i f hf; simp [packedFrom] at hf
  | cons r rs ih =>
    intro ix i f hf
    cases i with
    | zero => simp [packedFrom, packRun] at hf; subst hf; simp
    | succ i =>
      simp only [packedFrom, List.getElem?_cons_succ] at hf
      obtain ⟨h1, h2⟩ := ih _ _ _ hf
      refine ⟨by simp; omega, ?_⟩
      rw [h2]; congr 1; omega

theorem unpack_filter (fs : List ExtField) :
    unpackInterlinks (fs.filter fun f => decide (f.k0 = interlinkPrefix)) = unpackInterlinks fs := by
  induction fs with
  | nil => rfl
  | cons f fs ih =>
    by_cases h : f.k0 = interlinkPrefix
    · rw [List.filter_cons_of_pos (by simpa using h)]
      simp only [unpackInterlinks]
      rw [ih]
    · rw [List.filter_cons_of_neg (by simpa using h), ih]
      simp only [unpackInterlinks]
      rw [if_neg h]

/-- Every vector has runs. -/
theorem exists_runs (links : List Bytes) (h : ∀ x ∈ links, x.length = 32) :
    ∃ rs, Runs rs ∧ expandRuns rs = links ∧ (links ≠ [] → rs ≠ []) ∧ rs.length ≤ links.length ∧
      (∀ r ∈ rs, r.1 ≤ links.length) := by
  induction links with
  | nil => exact ⟨[], ⟨by simp, by simp, by simp⟩, rfl, by simp, by simp, by simp⟩
  | cons x l ih =>
    obtain ⟨rs, hr, he, hn, hl, hc⟩ := ih (fun y hy => h y (by simp [hy]))
    have hx := h x (by simp)
    cases rs with
    | nil =>
      have hl0 : l = [] := by simpa [expandRuns] using he.symm
      subst hl0
      exact ⟨[(1, x)], ⟨by simp, by simpa using hx, by simp⟩, rfl, by simp, by simp, by simp⟩
    | cons r rs =>
      obtain ⟨n, id⟩ := r
      by_cases hid : x = id
      · subst hid
        refine ⟨(n + 1, x) :: rs, ⟨?_, ?_, ?_⟩, ?_, by simp, by simp at hl ⊢; omega, ?_⟩
        · intro r hr'
          rcases List.mem_cons.1 hr' with rfl | hr'
          · simp
          · exact hr.pos r (by simp [hr'])
        · intro r hr'
          rcases List.mem_cons.1 hr' with rfl | hr'
          · exact hx
          · exact hr.id r (by simp [hr'])
        · have := hr.distinct
          cases rs with
          | nil => simp
          | cons r' rs' => rw [List.isChain_cons_cons] at *; exact this
        · rw [← he]; simp [expandRuns, List.replicate_succ]
        · intro r hr'
          rcases List.mem_cons.1 hr' with rfl | hr'
          · have := hc (n, x) (by simp); simp at this ⊢; omega
          · have := hc r (by simp [hr']); simp at this ⊢; omega
      · refine ⟨(1, x) :: (n, id) :: rs, ⟨?_, ?_, ?_⟩, ?_, by simp, by simp at hl ⊢; omega, ?_⟩
        · intro r hr'
          rcases List.mem_cons.1 hr' with rfl | hr'
          · simp
          · exact hr.pos r hr'
        · intro r hr'
          rcases List.mem_cons.1 hr' with rfl | hr'
          · exact hx
          · exact hr.id r hr'
        · rw [List.isChain_cons_cons]; exact ⟨hid, hr.distinct⟩
        · rw [← he]; simp [expandRuns, List.replicate_succ]
        · intro r hr'
          rcases List.mem_cons.1 hr' with rfl | hr'
          · simp
          · have := hc r hr'; simp at this ⊢; omega

/-! ## Updating -/

theorem update_spec (W : Pow) (h : Header G) (links : List Bytes) (hh : h.height ≠ 1) (hne : links ≠ []) (l : BitVec 32)
    (hl : W.maxLevel h = .ok l) (n : Nat) (hn : l.toInt = n) :
    ∃ r, updateInterlinks W h links = .ok r ∧ r[0]? = links[0]? ∧ r.length = max links.length (n + 1) ∧
      ∀ μ, 1 ≤ μ → μ < r.length → slot r μ = if μ ≤ n then some h.id else slot links μ := by
  have hnat : l.toNat = n := by
    have := BitVec.toInt_eq_toNat_cond l
    have := l.isLt
    split at * <;> omega
  cases links with
  | nil => exact absurd rfl hne
  | cons g t =>
    unfold updateInterlinks
    rw [if_neg hh, hl]
    dsimp only
    show ∃ r, (if l.toInt < 0 then _ else _) = Outcome.ok r ∧ _
    rw [if_neg (by omega), hnat, hn]
    by_cases hz : 0 < (n : Int)
    · rw [if_pos hz]
      by_cases hlt : n < (g :: t).length
      · rw [if_pos hlt]
        simp only [List.length_cons] at hlt
        refine ⟨_, rfl, rfl, ?_, ?_⟩
        · simp; omega
        · intro μ h1 h2
          simp only [List.length_cons, List.length_append, List.length_drop, List.length_take, List.length_replicate] at h2
          unfold slot
          simp only [List.length_cons, List.length_append, List.length_drop, List.length_take, List.length_replicate]
          obtain ⟨j, hj⟩ : ∃ j, min (t.length + 1 - n) (t.length + 1) - 1 + n + 1 - μ = j + 1 :=
            ⟨min (t.length + 1 - n) (t.length + 1) - 1 + n + 1 - μ - 1, by omega⟩
          rw [hj, List.getElem?_cons_succ]
          by_cases hμ : μ ≤ n
          · rw [if_pos hμ, List.getElem?_append_right (by simp; omega), List.getElem?_replicate, if_pos (by simp; omega)]
          · rw [if_neg hμ, List.getElem?_append_left (by simp; omega), List.getElem?_drop, List.getElem?_take_of_lt (by omega)]
            congr 1
            omega
      · rw [if_neg hlt]
        simp only [List.length_cons] at hlt
        refine ⟨_, rfl, rfl, by simp; omega, ?_⟩
        intro μ h1 h2
        simp only [List.length_cons, List.length_replicate] at h2
        unfold slot
        simp only [List.length_cons, List.length_replicate]
        obtain ⟨j, hj⟩ : ∃ j, n + 1 - μ = j + 1 := ⟨n - μ, by omega⟩
        rw [if_pos (by omega), hj, List.getElem?_cons_succ, List.getElem?_replicate, if_pos (by omega)]
    · rw [if_neg hz]
      refine ⟨_, rfl, rfl, by simp; omega, ?_⟩
      intro μ h1 h2
      rw [if_neg (by omega)]

theorem linksAfter_spec (W : Pow) (lv : Header G → Nat) : ∀ (hs : List (Header G)) (links : List Bytes), links ≠ [] → Levels W lv hs →
    ∃ r, linksAfter W links hs = .ok r ∧ r[0]? = links[0]? ∧ r.length = hs.foldl (fun a h => max a (lv h + 1)) links.length ∧
      ∀ μ, 1 ≤ μ → μ < r.length →
        slot r μ = ((hs.reverse.find? fun h => decide (μ ≤ lv h)).map Header.id).orElse fun _ => slot links μ := by
  intro hs
  induction hs with
  | nil =>
    intro links hne _
    exact ⟨links, rfl, rfl, rfl, fun μ _ _ => rfl⟩
  | cons h hs ih =>
    intro links hne hlv
    obtain ⟨hh, l, hl1, hl2⟩ := hlv h (by simp)
    obtain ⟨r1, e1, e2, e3, e4⟩ := update_spec W h links hh hne l hl1 (lv h) hl2
    have hr1 : r1 ≠ [] := by
      intro c; subst c; simp at e3; omega
    obtain ⟨r, f1, f2, f3, f4⟩ := ih r1 hr1 (fun x hx => hlv x (by simp [hx]))
    refine ⟨r, ?_, f2.trans e2, ?_, ?_⟩
    · simp only [linksAfter]; rw [e1]; exact f1
    · rw [f3, e3]; rfl
    · intro μ h1 h2
      rw [f4 μ h1 h2, List.reverse_cons, List.find?_append]
      cases hfind : hs.reverse.find? fun h => decide (μ ≤ lv h) with
      | some x => rfl
      | none =>
        have hμ : μ < r1.length := by
          rw [f3] at h2
          have : ∀ (xs : List (Header G)) a, (∀ x ∈ xs, ¬ μ ≤ lv x) → μ < xs.foldl (fun a h => max a (lv h + 1)) a → μ < a := by
            intro xs
            induction xs with
            | nil => intro a _ h; exact h
            | cons x xs ih2 =>
              intro a hx h
              have h3 : μ < max a (lv x + 1) := ih2 _ (fun y hy => hx y (by simp [hy])) h
              have := hx x (by simp)
              omega
          refine this hs _ ?_ h2
          intro x hx
          have := List.find?_eq_none.1 hfind x (by simpa using hx)
          simpa using this
        show slot r1 μ = _
        rw [e4 μ h1 hμ]
        by_cases hle : μ ≤ lv h
        · rw [if_pos hle]; simp [List.find?_cons_of_pos, hle]
        · rw [if_neg hle]; simp [List.find?_cons_of_neg, hle]

/-! ## Lowest common ancestor -/

section Lca
variable [DecidableEq G]

theorem lcaInner_none (left : Header G) : ∀ (l : List (Header G × Nat)) st, (∀ x ∈ l, left ≠ x.1) → lcaInner left l st = st := by
  intro l
  induction l with
  | nil => intro st _; rfl
  | cons x l ih =>
    intro st h
    obtain ⟨r, i⟩ := x
    simp only [lcaInner]
    rw [if_neg (h (r, i) (by simp))]
    exact ih st (fun y hy => h y (by simp [hy]))

theorem lcaInner_mem (left : Header G) : ∀ (l : List (Header G × Nat)) st,
    (lcaInner left l st).2 = st.2 ∨ ((∃ x ∈ l, left = x.1) ∧ ∃ n, (lcaInner left l st).2 = st.2 ++ List.replicate n left) := by
  intro l
  induction l with
  | nil => intro st; exact .inl rfl
  | cons x l ih =>
    intro st
    obtain ⟨r, i⟩ := x
    simp only [lcaInner]
    by_cases h : left = r
    · rw [if_pos h]
      right
      refine ⟨⟨(r, i), by simp, h⟩, ?_⟩
      rcases ih (i + 1, st.2 ++ [left]) with h1 | ⟨_, n, h1⟩
      · exact ⟨1, h1⟩
      · refine ⟨n + 1, ?_⟩
        rw [h1]; simp [List.replicate_succ]
    · rw [if_neg h]
      rcases ih st with h1 | ⟨⟨y, hy, h2⟩, n, h1⟩
      · exact .inl h1
      · exact .inr ⟨⟨y, by simp [hy], h2⟩, n, h1⟩

theorem lcaOuter_mem (right : List (Header G)) : ∀ (l : List (Header G)) st, ∀ x ∈ (lcaOuter right l st).2,
    x ∈ st.2 ∨ (x ∈ l ∧ x ∈ right) := by
  intro l
  induction l with
  | nil => intro st x hx; exact .inl hx
  | cons h l ih =>
    intro st x hx
    simp only [lcaOuter] at hx
    rcases ih _ x hx with h1 | ⟨h1, h2⟩
    · rcases lcaInner_mem h (right.zipIdx.drop st.1) st with e | ⟨⟨y, hy, e2⟩, n, e⟩
      · rw [e] at h1; exact .inl h1
      · rw [e, List.mem_append] at h1
        rcases h1 with h1 | h1
        · exact .inl h1
        · have := List.eq_of_mem_replicate h1
          subst this
          right
          refine ⟨by simp, ?_⟩
          have hy2 := List.mem_of_mem_drop hy
          obtain ⟨y1, y2⟩ := y
          have := List.mem_zipIdx hy2
          simp only at e2
          rw [e2, this.2.2]
          exact List.getElem_mem _
    · exact .inr ⟨by simp [h1], h2⟩

/-- With rising heights the inner loop finds the header at its only index. -/
theorem lcaInner_hit (right : List (Header G)) (hr : Rising right) (left : Header G) (s i : Nat) (hs : s ≤ i)
    (hi : right[i]? = some left) (c : List (Header G)) :
    lcaInner left (right.zipIdx.drop s) (s, c) = (i + 1, c ++ [left]) := by
  have hlt : i < right.length := (List.getElem?_eq_some_iff.1 hi).1
  have key : ∀ (d : Nat) (s' : Nat) (st : Nat × List (Header G)), s' + d = i →
      lcaInner left (right.zipIdx.drop s') st = (i + 1, st.2 ++ [left]) := by
    intro d
    induction d with
    | zero =>
      intro s' st e
      have : s' = i := by omega
      subst this
      have hd : right.zipIdx.drop s' = (left, s') :: right.zipIdx.drop (s' + 1) := by
        rw [List.drop_eq_getElem_cons (by simpa using hlt)]
        congr 1
        rw [List.getElem_zipIdx]
        simp [(List.getElem?_eq_some_iff.1 hi).2]
      rw [hd]
      simp only [lcaInner]
      rw [if_pos trivial]
      apply lcaInner_none
      intro x hx e
      obtain ⟨j, hj, hjx⟩ := List.mem_iff_getElem.1 hx
      simp only [List.length_drop, List.length_zipIdx] at hj
      rw [List.getElem_drop, List.getElem_zipIdx] at hjx
      have h1 := List.pairwise_iff_getElem.1 hr s' (s' + 1 + j) hlt (by omega) (by omega)
      have h2 : right[s'] = left := (List.getElem?_eq_some_iff.1 hi).2
      have h3 : right[s' + 1 + j] = x.1 := by rw [← hjx]
      rw [h2, h3, ← e] at h1
      omega
    | succ d ih =>
      intro s' st e
      have hd : right.zipIdx.drop s' = (right[s']'(by omega), s') :: right.zipIdx.drop (s' + 1) := by
        rw [List.drop_eq_getElem_cons (by simp; omega)]
        congr 1
        rw [List.getElem_zipIdx]
        simp
      rw [hd]
      simp only [lcaInner]
      have hne : left ≠ right[s']'(by omega) := by
        intro e2
        have h1 := List.pairwise_iff_getElem.1 hr s' i (by omega) hlt (by omega)
        have h2 : right[i] = left := (List.getElem?_eq_some_iff.1 hi).2
        rw [h2, ← e2] at h1
        omega
      rw [if_neg hne]
      exact ih (s' + 1) st (by omega)
  exact key (i - s) s (s, c) (by omega)

theorem lcaOuter_rising (right : List (Header G)) (hr : Rising right) : ∀ (l : List (Header G)) (s : Nat) (c : List (Header G)),
    Rising l → (∀ j < s, ∀ x ∈ l, ∀ y, right[j]? = some y → y.height.toNat < x.height.toNat) →
    (lcaOuter right l (s, c)).2 = c ++ l.filter fun x => decide (x ∈ right) := by
  intro l
  induction l with
  | nil => intro s c _ _; simp [lcaOuter]
  | cons h l ih =>
    intro s c hl hs
    obtain ⟨hl1, hl2⟩ := List.pairwise_cons.1 hl
    simp only [lcaOuter]
    by_cases hm : h ∈ right
    · obtain ⟨i, hi⟩ := List.mem_iff_getElem?.1 hm
      have hsi : s ≤ i := by
        by_contra hc
        have := hs i (by omega) h (by simp) h hi
        omega
      rw [lcaInner_hit right hr h s i hsi hi, ih (i + 1) _ hl2 ?_, List.filter_cons_of_pos (by simpa using hm), List.append_assoc]
      · rfl
      · intro j hj x hx y hy
        have h1 := hl1 x hx
        have hi' := List.getElem?_eq_some_iff.1 hi
        have hy' := List.getElem?_eq_some_iff.1 hy
        rcases Nat.lt_or_ge j i with hlt | hge
        · have := List.pairwise_iff_getElem.1 hr j i hy'.1 hi'.1 hlt
          rw [hy'.2, hi'.2] at this
          omega
        · have : j = i := by omega
          subst this
          rw [hi] at hy
          cases hy
          exact h1
    · rw [lcaInner_none, ih s c hl2 (fun j hj x hx => hs j hj x (by simp [hx])), List.filter_cons_of_neg (by simpa using hm)]
      intro x hx e
      have hx2 := List.mem_of_mem_drop hx
      obtain ⟨x1, x2⟩ := x
      have := List.mem_zipIdx hx2
      simp only at e
      apply hm
      rw [e, this.2.2]
      exact List.getElem_mem _

theorem lca_eq (left right : List (Header G)) (hl : Rising left) (hr : Rising right) (hhd : left.head? = right.head?) :
    lca left right = (left.filter fun x => decide (x ∈ right)).getLast? := by
  have h := lcaOuter_rising right hr left 0 [] hl (by omega)
  rw [List.nil_append] at h
  unfold lca
  split
  · next a _ b _ =>
    simp only [List.head?_cons, Option.some.injEq] at hhd
    rw [if_neg (by simp [hhd]), h]
  · rw [h]

theorem getLast_rising {c : List (Header G)} (hc : Rising c) {x : Header G} (hx : x ∈ c) :
    ∃ l, c.getLast? = some l ∧ x.height.toNat ≤ l.height.toNat := by
  have hne : c ≠ [] := List.ne_nil_of_mem hx
  refine ⟨c.getLast hne, List.getLast?_eq_some_getLast hne, ?_⟩
  obtain ⟨i, hi, rfl⟩ := List.mem_iff_getElem.1 hx
  rw [List.getLast_eq_getElem]
  by_cases h : i = c.length - 1
  · subst h; exact Nat.le_refl _
  · exact Nat.le_of_lt (List.pairwise_iff_getElem.1 hc i (c.length - 1) hi (by omega) (by omega))

theorem rising_inj {c : List (Header G)} (hc : Rising c) {x y : Header G} (hx : x ∈ c) (hy : y ∈ c)
    (h : x.height.toNat = y.height.toNat) : x = y := by
  obtain ⟨i, hi, rfl⟩ := List.mem_iff_getElem.1 hx
  obtain ⟨j, hj, rfl⟩ := List.mem_iff_getElem.1 hy
  rcases Nat.lt_trichotomy i j with h1 | h1 | h1
  · have := List.pairwise_iff_getElem.1 hc i j hi hj h1; omega
  · subst h1; rfl
  · have := List.pairwise_iff_getElem.1 hc j i hj hi h1; omega

end Lca

end Verif
