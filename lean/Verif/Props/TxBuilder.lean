import Verif.Proofs.SelectLoop
import Verif.Model.TxBuilder

/-! # C08, C09: transaction building -/

set_option linter.unusedSimpArgs false
set_option linter.unusedVariables false

namespace Verif
open Spec

theorem buildCandidate_ok {env : TxEnv} {value : Nat} {tree : Bytes} {height : Nat} {toks : List Token}
    {c : Candidate} (h : buildCandidate env value tree height toks = .ok c) :
    c.assets.value = value ∧ c.assets.toks = toks ∧ c.tree = tree ∧ c.height = height ∧ toks.length ≤ 122 ∧
    (c.assets.tokens = none ↔ toks = []) := by
  unfold buildCandidate at h
  by_cases h1 : toks.length > maxTokensCount
  · rw [if_pos h1] at h; simp at h
  · rw [if_neg h1] at h
    simp only at h
    split at h
    · simp at h
    · split at h
      · simp at h
      · split at h
        · simp only [Outcome.ok.injEq] at h
          subst h
          unfold maxTokensCount at h1
          refine ⟨rfl, ?_, rfl, rfl, by omega, ?_⟩
          · unfold Assets.toks
            cases toks <;> simp
          · cases toks <;> simp
        · simp at h

theorem buildChange_ok {env : TxEnv} {tree : Bytes} {height : Nat} (bs : List Assets) :
    ∀ (cs : List Candidate), buildChange env tree height bs = .ok cs →
    boxesValue (cs.map Candidate.assets) = boxesValue bs ∧
    (∀ id, boxesTok id (cs.map Candidate.assets) = boxesTok id bs) ∧ cs.length = bs.length ∧
    (∀ c ∈ cs, c.tree = tree ∧ c.height = height) ∧
    (cs.map fun c => c.assets.toks) = bs.map Assets.toks := by
  induction bs with
  | nil =>
    intro cs h
    simp only [buildChange, Outcome.pure_eq, Outcome.ok.injEq] at h
    subst h
    simp [boxesTok_nil]
  | cons b bs ih =>
    intro cs h
    rw [buildChange] at h
    simp only [Outcome.bind_eq_ok] at h
    obtain ⟨c, h1, cs', h2, h3⟩ := h
    simp only [Outcome.pure_eq, Outcome.ok.injEq] at h3
    subst h3
    obtain ⟨i1, i2, i3, i4, i5⟩ := ih cs' h2
    obtain ⟨c1, c2, c3, c4, c5, _⟩ := buildCandidate_ok h1
    refine ⟨?_, ?_, by simp [i3], ?_, ?_⟩
    · simp only [boxesValue, List.map_cons, List.sum_cons] at i1 ⊢
      omega
    · intro id
      simp only [List.map_cons, boxesTok_cons, c2, i2]
    · intro x hx
      rcases List.mem_cons.1 hx with rfl | hx
      · exact ⟨c3, c4⟩
      · exact i4 x hx
    · simp only [List.map_cons, c2, i5]

theorem buildCandidate_assetsOk {env : TxEnv} {b : Assets} {tree : Bytes} {height : Nat}
    {c : Candidate} (hb : AssetsOk b) (h : buildCandidate env b.value tree height b.toks = .ok c) :
    AssetsOk c.assets := by
  obtain ⟨h1, h2, _, _, h5, h6⟩ := buildCandidate_ok h
  refine ⟨by rw [h1]; exact hb.1, by rw [h1]; exact hb.2.1, ?_, by rw [h2]; exact hb.2.2.2⟩
  intro ts hts
  have h7 : b.toks = ts := by rw [← h2, Assets.toks, hts]; rfl
  refine ⟨?_, by rw [← h7]; exact h5⟩
  rw [← h7]
  have : b.toks ≠ [] := fun e => by rw [h6.2 e] at hts; simp at hts
  exact List.length_pos_iff.2 this

theorem buildChange_assetsOk {env : TxEnv} {tree : Bytes} {height : Nat} (bs : List Assets) :
    ∀ (cs : List Candidate), (∀ b ∈ bs, AssetsOk b) → buildChange env tree height bs = .ok cs →
    ∀ c ∈ cs, AssetsOk c.assets := by
  induction bs with
  | nil =>
    intro cs _ h
    simp only [buildChange, Outcome.pure_eq, Outcome.ok.injEq] at h
    subst h
    simp
  | cons b bs ih =>
    intro cs hbs h
    rw [buildChange] at h
    simp only [Outcome.bind_eq_ok] at h
    obtain ⟨c, h1, cs', h2, h3⟩ := h
    simp only [Outcome.pure_eq, Outcome.ok.injEq] at h3
    subst h3
    intro x hx
    rcases List.mem_cons.1 hx with rfl | hx
    · exact buildCandidate_assetsOk (hbs b (by simp)) h1
    · exact ih cs' (fun y hy => hbs y (by simp [hy])) h2 x hx

/-- What the Rust types guarantee of a builder. -/
structure BuilderOk (b : TxBuilder) : Prop where
  inputs : ∀ x ∈ b.boxes, AssetsOk x.assets
  change : ∀ x ∈ b.changeBoxes, AssetsOk x
  outputs : ∀ c ∈ b.outputs, AssetsOk c.assets
  permits : ∀ t ∈ b.permits, 1 ≤ t.2 ∧ t.2 ≤ 9223372036854775807
  fee : 10800 ≤ b.fee ∧ b.fee ≤ 9223372036854775807

/-- Everything a successful build fixes about the shape of the transaction. -/
theorem buildTx_shape {m : Mode} {env : TxEnv} {b : TxBuilder} {tx : UnsignedTx} (h : buildTx m env b = .ok tx) :
    ∃ first restBoxes change feeBox totalIn,
      b.boxes = first :: restBoxes ∧ tx.outputs = b.outputs ++ change ++ [feeBox] ∧
      (∃ tree, b.changeTree = some tree ∧ buildChange env tree b.height b.changeBoxes = .ok change) ∧
      newMinerFeeBox env b.fee b.height = .ok feeBox ∧
      sumValue m (b.boxes.map InBox.assets) = .ok totalIn ∧
      sumValue m (tx.outputs.map Candidate.assets) = .ok totalIn ∧
      checkTokens first.id (b.boxes.map InBox.assets) (tx.outputs.map Candidate.assets) b.permits = .ok () ∧
      tx.inputs = (b.boxes.map fun x => (x.id, FMap.get b.ctxExt x.id)) ∧ tx.dataInputs = b.dataInputs ∧
      (b.boxes.map InBox.id).Nodup ∧ b.outputs ≠ [] ∧ tx.outputs.length ≤ 65535 ∧ b.boxes.length ≤ 65535 := by
  unfold buildTx at h
  split at h
  · simp at h
  · rename_i first rest hb
    split at h
    · simp at h
    · rename_i h0
      split at h
      · simp at h
      · rename_i h1
        split at h
        · simp at h
        · rename_i h2
          split at h
          · simp at h
          · split at h
            · simp at h
            · rename_i tree ht
              simp only [Outcome.bind_eq_ok] at h
              obtain ⟨change, e1, feeBox, e2, h⟩ := h
              split at h
              · simp at h
              · rename_i h3
                simp only [Outcome.bind_eq_ok] at h
                obtain ⟨ti, e3, tot, e4, h⟩ := h
                split at h
                · simp at h
                · split at h
                  · simp at h
                  · rename_i h5 h6
                    simp only [Outcome.bind_eq_ok] at h
                    obtain ⟨u, e5, h⟩ := h
                    split at h
                    · simp only [Outcome.pure_eq, Outcome.ok.injEq] at h
                      subst h
                      have : tot = ti := by omega
                      subst this
                      refine ⟨first, rest, change, feeBox, tot, hb, rfl, ⟨tree, ht, e1⟩, e2, e3, e4, e5, rfl, rfl,
                        by simpa using h2, by simpa using h0, by simp only; omega, by omega⟩
                    · simp at h

/-- C08 in general form: values are conserved modulo 2^64, and exactly when sums do not wrap. -/
theorem buildTx_values {m : Mode} {env : TxEnv} {b : TxBuilder} {tx : UnsignedTx} (h : buildTx m env b = .ok tx)
    (hm : m = .debug ∨ (boxesValue (b.boxes.map InBox.assets) < 2 ^ 64 ∧
      boxesValue (tx.outputs.map Candidate.assets) < 2 ^ 64)) :
    boxesValue (b.boxes.map InBox.assets) = boxesValue (tx.outputs.map Candidate.assets) ∧
    boxesValue (tx.outputs.map Candidate.assets) =
      boxesValue (b.outputs.map Candidate.assets) + boxesValue b.changeBoxes + b.fee := by
  obtain ⟨first, rest, change, feeBox, ti, hb, ho, ⟨tree, ht, hc⟩, hf, e3, e4, _⟩ := buildTx_shape h
  constructor
  · have h3 := sumValueAux_ok m _ 0 ti (by decide) e3
    have h4 := sumValueAux_ok m _ 0 ti (by decide) e4
    simp only [Nat.zero_add] at h3 h4
    rcases hm with hm | ⟨hi, ho'⟩
    · rw [← h3.2.1 hm, ← h4.2.1 hm]
    · rw [Nat.mod_eq_of_lt hi] at h3
      rw [Nat.mod_eq_of_lt ho'] at h4
      omega
  · rw [ho]
    have h1 := (buildChange_ok _ _ hc).1
    have h2 := (buildCandidate_ok hf).1
    simp only [List.map_append, boxesValue_append, List.map_cons, List.map_nil, h1]
    simp [boxesValue, h2]

/-- C08 (debug builds, or any build with `overflow-checks`): whenever `build` succeeds, the inputs are worth exactly
the user's outputs plus change plus the fee, and that is what the transaction's outputs are worth. -/
theorem C08_build_conserves (env : TxEnv) (b : TxBuilder) (tx : UnsignedTx) (h : buildTx .debug env b = .ok tx) :
    boxesValue (b.boxes.map InBox.assets) = boxesValue (tx.outputs.map Candidate.assets) ∧
    boxesValue (b.boxes.map InBox.assets) =
      boxesValue (b.outputs.map Candidate.assets) + boxesValue b.changeBoxes + b.fee := by
  have := buildTx_values h (Or.inl rfl)
  exact ⟨this.1, this.1.trans this.2⟩

/-- C08 for release builds.  Missing: without the two range hypotheses it is false, see `C08_release_wraps`. -/
theorem C08_build_conserves_release_partial (env : TxEnv) (b : TxBuilder) (tx : UnsignedTx)
    (h : buildTx .release env b = .ok tx)
    (hin : boxesValue (b.boxes.map InBox.assets) < 2 ^ 64)
    (hout : boxesValue (tx.outputs.map Candidate.assets) < 2 ^ 64) :
    boxesValue (b.boxes.map InBox.assets) = boxesValue (tx.outputs.map Candidate.assets) ∧
    boxesValue (b.boxes.map InBox.assets) =
      boxesValue (b.outputs.map Candidate.assets) + boxesValue b.changeBoxes + b.fee := by
  have := buildTx_values h (Or.inr ⟨hin, hout⟩)
  exact ⟨this.1, this.1.trans this.2⟩

/-- C08: shape of the transaction: inputs in order, each box once, and outputs are the user's candidates, then change,
then a box paying exactly the fee to the miners' contract. -/
theorem C08_build_shape (m : Mode) (env : TxEnv) (b : TxBuilder) (tx : UnsignedTx) (h : buildTx m env b = .ok tx) :
    tx.inputs.map Prod.fst = b.boxes.map InBox.id ∧ (tx.inputs.map Prod.fst).Nodup ∧
    tx.dataInputs = b.dataInputs ∧
    ∃ change fee, tx.outputs = b.outputs ++ change ++ [fee] ∧ change.length = b.changeBoxes.length ∧
      fee.assets = { value := b.fee, tokens := none } ∧ fee.tree = env.feeTree ∧
      (∀ c ∈ change, some c.tree = b.changeTree ∧ c.height = b.height) := by
  obtain ⟨first, rest, change, feeBox, ti, hb, ho, ⟨tree, ht, hc⟩, hf, e3, e4, e5, hi, hd, hn, _⟩ := buildTx_shape h
  have hids : tx.inputs.map Prod.fst = b.boxes.map InBox.id := by rw [hi, List.map_map]; rfl
  refine ⟨hids, by rw [hids]; exact hn, hd, change, feeBox, ho, (buildChange_ok _ _ hc).2.2.1, ?_, ?_, ?_⟩
  · have h1 := buildCandidate_ok hf
    have h2 := h1.2.2.2.2.2.2 rfl
    cases hfb : feeBox.assets with
    | mk v t =>
      rw [hfb] at h1 h2
      simp only at h1 h2
      rw [h2, h1.1]
  · exact (buildCandidate_ok hf).2.2.1
  · intro c hcm
    obtain ⟨h1, h2⟩ := (buildChange_ok _ _ hc).2.2.2.1 c hcm
    exact ⟨by rw [h1, ht], h2⟩

theorem filter_good {m : TokenMap} (hg : Good m) (f : TokenId) :
    Good (m.filter fun p => decide (p.1 ≠ f)) ∧
    ∀ id, amt (m.filter fun p => decide (p.1 ≠ f)) id = if id = f then 0 else amt m id := by
  have hok : FMap.Ok (m.filter fun p => decide (p.1 ≠ f)) := by
    have := hg.ok
    unfold FMap.Ok at this ⊢
    exact this.sublist (List.Sublist.map _ List.filter_sublist)
  have hget : ∀ id a, FMap.get (m.filter fun p => decide (p.1 ≠ f)) id = some a ↔
      FMap.get m id = some a ∧ id ≠ f := by
    intro id a
    rw [← FMap.mem_iff_get hok, ← FMap.mem_iff_get hg.ok]
    simp
  refine ⟨⟨hok, fun id a h => hg.pos id a ((hget id a).1 h).1, fun id a h => hg.le id a ((hget id a).1 h).1⟩, ?_⟩
  intro id
  by_cases hid : id = f
  · rw [if_pos hid]
    apply amt_of_none
    cases h : FMap.get (m.filter fun p => decide (p.1 ≠ f)) id with
    | none => rfl
    | some a => exact absurd hid ((hget id a).1 h).2
  · rw [if_neg hid]
    cases h : FMap.get m id with
    | some a => rw [amt_of_get h, amt_of_get ((hget id a).2 ⟨h, hid⟩)]
    | none =>
      rw [amt_of_none h]
      apply amt_of_none
      cases h' : FMap.get (m.filter fun p => decide (p.1 ≠ f)) id with
      | none => rfl
      | some a => rw [((hget id a).1 h').1] at h; simp at h

theorem checkTokens_ok {f : TokenId} {ins outs : List Assets} {permits : List Token} {u : Unit}
    (hin : ∀ b ∈ ins, AssetsOk b) (hout : ∀ b ∈ outs, AssetsOk b) (hp : ToksOk permits)
    (h : checkTokens f ins outs permits = .ok u) (id : TokenId) :
    boxesTok id ins = (if id = f then 0 else boxesTok id outs) + tokTotal id permits := by
  unfold checkTokens at h
  simp only [Outcome.bind_eq_ok] at h
  obtain ⟨it, e1, ot, e2, h⟩ := h
  split at h
  · simp at h
  split at h
  · simp at h
  simp only [Outcome.bind_eq_ok] at h
  obtain ⟨burned, e3, pm, e4, h⟩ := h
  split at h
  · simp at h
  split at h
  · simp at h
  rename_i hc1 hc2
  obtain ⟨g1, a1⟩ := addTokens_ok _ _ _ Good.nil (toksOk_flatMap hin) e1
  obtain ⟨g2, a2⟩ := addTokens_ok _ _ _ Good.nil (toksOk_flatMap hout) e2
  obtain ⟨g2', a2'⟩ := filter_good g2 f
  obtain ⟨g3, a3⟩ := subtractTokens_ok _ it burned g1 g2'.toksOk e3
  obtain ⟨g4, a4⟩ := addTokens_ok _ _ _ Good.nil hp e4
  simp only [amt_nil, Nat.zero_add] at a1 a2 a4
  have hb : amt burned id = amt pm id := by
    have h1 : checkEnoughBurnPermit burned pm = true := by simpa using hc1
    have h2 : checkUnusedBurnPermit burned pm = true := by simpa using hc2
    unfold checkEnoughBurnPermit at h1
    unfold checkUnusedBurnPermit at h2
    simp only [List.all_eq_true] at h1 h2
    cases hgb : FMap.get burned id with
    | some v =>
      have := h1 (id, v) (FMap.get_some_mem hgb)
      simp only at this
      cases hgp : FMap.get pm id with
      | none => rw [hgp] at this; simp at this
      | some w =>
        rw [hgp] at this
        have h3 := h2 (id, w) (FMap.get_some_mem hgp)
        simp only [hgb] at h3
        simp at this h3
        rw [amt_of_get hgb, amt_of_get hgp]; omega
    | none =>
      cases hgp : FMap.get pm id with
      | none => rw [amt_of_none hgb, amt_of_none hgp]
      | some w =>
        have h3 := h2 (id, w) (FMap.get_some_mem hgp)
        simp only [hgb] at h3
        simp at h3
  have h3 := a3 id
  rw [tokTotal_map g2'.ok, a2', hb, a4, a1, a2] at h3
  unfold boxesTok
  omega

/-- All outputs of a built transaction are valid boxes. -/
theorem C08_outputs_valid (m : Mode) (env : TxEnv) (b : TxBuilder) (tx : UnsignedTx) (hok : BuilderOk b)
    (h : buildTx m env b = .ok tx) : ∀ c ∈ tx.outputs, AssetsOk c.assets := by
  obtain ⟨first', rest, change, feeBox, ti, hb, ho, ⟨tree, ht, hc⟩, hf, _⟩ := buildTx_shape h
  rw [ho]
  intro c hcm
  simp only [List.mem_append, List.mem_singleton] at hcm
  rcases hcm with (hcm | hcm) | hcm
  · exact hok.outputs c hcm
  · exact buildChange_assetsOk _ _ hok.change hc c hcm
  · subst hcm
    exact buildCandidate_assetsOk (b := { value := b.fee, tokens := none })
      ⟨hok.fee.1, hok.fee.2, by simp, by simp [Assets.toks]⟩ hf

/-- C09, exact balance: for every token id other than the id of the first input box, inputs = outputs + burn
permits; and the first input's id, if it occurs as a token in the inputs at all, is counted as burnt in full. -/
theorem C09_token_balance (m : Mode) (env : TxEnv) (b : TxBuilder) (tx : UnsignedTx) (first : InBox)
    (hfirst : b.boxes.head? = some first)
    (hok : BuilderOk b) (h : buildTx m env b = .ok tx) (id : TokenId) :
    boxesTok id (b.boxes.map InBox.assets) =
      (if id = first.id then 0 else boxesTok id (tx.outputs.map Candidate.assets)) + tokTotal id b.permits := by
  obtain ⟨first', rest, change, feeBox, ti, hb, ho, hc, hf, e3, e4, e5, _⟩ := buildTx_shape h
  rw [hb] at hfirst
  simp only [List.head?_cons, Option.some.injEq] at hfirst
  subst hfirst
  exact checkTokens_ok (by
    intro x hx
    obtain ⟨y, hy, rfl⟩ := List.mem_map.1 hx
    exact hok.inputs y hy) (by
    intro x hx
    obtain ⟨y, hy, rfl⟩ := List.mem_map.1 hx
    exact C08_outputs_valid m env b tx hok h y hy) hok.permits e5 id

/-- C09: a token whose output total exceeds its input total is the minted one (its id is the first input's id). -/
theorem C09_only_mint_creates (m : Mode) (env : TxEnv) (b : TxBuilder) (tx : UnsignedTx) (first : InBox)
    (hfirst : b.boxes.head? = some first)
    (hok : BuilderOk b) (h : buildTx m env b = .ok tx) (id : TokenId)
    (hmore : boxesTok id (b.boxes.map InBox.assets) < boxesTok id (tx.outputs.map Candidate.assets)) :
    id = first.id := by
  have := C09_token_balance m env b tx first hfirst hok h id
  by_contra hne
  rw [if_neg hne] at this
  omega

/-- C09: a token whose input total exceeds its output total is burnt, and the permits allow exactly that amount. -/
theorem C09_burn_needs_exact_permit (m : Mode) (env : TxEnv) (b : TxBuilder) (tx : UnsignedTx) (first : InBox)
    (hfirst : b.boxes.head? = some first)
    (hok : BuilderOk b) (h : buildTx m env b = .ok tx) (id : TokenId) (hne : id ≠ first.id) :
    tokTotal id b.permits =
      boxesTok id (b.boxes.map InBox.assets) - boxesTok id (tx.outputs.map Candidate.assets) := by
  have := C09_token_balance m env b tx first hfirst hok h id
  rw [if_neg hne] at this
  omega

/-- A sample environment: every candidate takes 100 bytes. -/
def sampleEnv : TxEnv := { size := fun _ => some 100, feeTree := [1], serializes := fun _ _ _ => true }

/-- A concrete build: minting 7 of token `[9]`, burning 2 of token `[5]`. -/
example : buildTx .debug sampleEnv
    { boxes := [⟨[9], ⟨3000000, some [([5], 5)]⟩⟩], changeBoxes := [⟨900000, some [([5], 3)]⟩], dataInputs := [],
      outputs := [⟨⟨1000000, some [([9], 7)]⟩, [2], 1⟩], height := 1, fee := 1100000, changeTree := some [3],
      ctxExt := [], permits := [([5], 2)] } =
    .ok { inputs := [([9], none)], dataInputs := [],
          outputs := [⟨⟨1000000, some [([9], 7)]⟩, [2], 1⟩, ⟨⟨900000, some [([5], 3)]⟩, [3], 1⟩,
            ⟨⟨1100000, none⟩, [1], 1⟩] } := by decide +kernel

/-- C08 (finding, release builds): outputs worth 2^64 nanoErg more than the inputs pass the preservation check. -/
theorem C08_release_wraps :
    ∃ (b : TxBuilder) (tx : UnsignedTx), (∀ x ∈ b.boxes, AssetsOk x.assets) ∧ (∀ c ∈ tx.outputs, AssetsOk c.assets) ∧
      buildTx .release sampleEnv b = .ok tx ∧
      boxesValue (tx.outputs.map Candidate.assets) = boxesValue (b.boxes.map InBox.assets) + 2 ^ 64 := by
  refine ⟨
    { boxes := [⟨[9], ⟨3000000, none⟩⟩], changeBoxes := [], dataInputs := [],
      outputs := [⟨⟨9223372036854775807, none⟩, [2], 1⟩, ⟨⟨9223372036854775807, none⟩, [2], 1⟩,
        ⟨⟨1900002, none⟩, [2], 1⟩], height := 1, fee := 1100000, changeTree := some [3],
      ctxExt := [], permits := [] },
    { inputs := [([9], none)], dataInputs := [],
      outputs := [⟨⟨9223372036854775807, none⟩, [2], 1⟩, ⟨⟨9223372036854775807, none⟩, [2], 1⟩,
        ⟨⟨1900002, none⟩, [2], 1⟩, ⟨⟨1100000, none⟩, [1], 1⟩] }, ?_, ?_, ?_, ?_⟩
  · intro x hx
    simp only [List.mem_cons, List.not_mem_nil, or_false] at hx
    subst hx
    simp [AssetsOk, Assets.toks]
  · intro x hx
    simp only [List.mem_cons, List.not_mem_nil, or_false] at hx
    rcases hx with rfl | rfl | rfl | rfl <;> simp [AssetsOk, Assets.toks]
  · decide +kernel
  · decide +kernel

/-- Finding: the candidate builder panics (unwrap) instead of returning an error when the serialized box is smaller
than 30 bytes. -/
theorem C08_small_box_panics :
    buildCandidate { sampleEnv with size := fun _ => some 29 } 1000000 [] 1 [] = .panic := by decide +kernel

end Verif
