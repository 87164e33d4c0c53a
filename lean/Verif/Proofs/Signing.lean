import Verif.Spec.Signing
import Verif.Proofs.Transaction
import Verif.Proofs.BoxSelector
import Verif.Proofs.SigmaBoolean
import Verif.Props.SigmaProtocol

set_option linter.unusedSimpArgs false
set_option linter.unusedVariables false

/-!
# Lemmas for signing and reducing transactions
-/

namespace Verif
open Verif.Sigma Verif.Spec

section
variable {G B T : Type} [DecidableEq G]

omit [DecidableEq G] in
theorem toSign_toSign (x : List (UnsignedInput G B)) :
    (x.map UnsignedInput.toSign).map Input.toSign = x.map UnsignedInput.toSign := by
  simp only [List.map_map]; rfl

/-- Inversion of `bytes_to_sign` of an unsigned transaction. -/
theorem unsigned_bytes_spec (E : Sers G B T) {u : UnsignedTransaction G B T} {m : Bytes} (h : u.bytesToSign E = .ok m) :
    serTxParts E (u.inputs.map UnsignedInput.toSign) u.dataInputs u.cands = .ok m ∧
      (∃ o, outputsFrom E (List.replicate 32 0) 0 u.cands = .ok o) ∧ ∃ o, outputsFrom E (E.H m) 0 u.cands = .ok o := by
  unfold UnsignedTransaction.bytesToSign UnsignedTransaction.toTx at h
  obtain ⟨t0, g1, g2⟩ := Outcome.bind_eq_ok.1 h
  obtain ⟨r1, r2, r3, r4, r5⟩ := Tx.new_spec E g1
  have hm : serTxParts E (u.inputs.map UnsignedInput.toSign) u.dataInputs u.cands = .ok m := by
    rw [Tx.bytesToSign_eq, r1, r2, r3, toSign_toSign] at g2
    exact g2
  have hid : t0.txId = E.H m := by
    unfold Tx.calcId at r4
    rw [g2] at r4
    simp only [Outcome.bind_ok, Outcome.pure_eq, Outcome.ok.injEq] at r4
    exact r4.symm
  refine ⟨hm, ?_, ⟨_, by rw [← hid]; exact r5⟩⟩
  unfold Tx.new at g1
  obtain ⟨o0, h1, _⟩ := Outcome.bind_eq_ok.1 g1
  exact ⟨o0, h1⟩

/-- The constructor of the signed transaction, for inputs that differ from the unsigned ones in their proofs only. -/
theorem signed_new (E : Sers G B T) {u : UnsignedTransaction G B T} {m : Bytes} (h : u.bytesToSign E = .ok m)
    {inputs : List (Input G B)} (hi : inputs.map Input.toSign = u.inputs.map UnsignedInput.toSign) :
    ∃ o, outputsFrom E (E.H m) 0 u.cands = .ok o ∧
      Tx.new E inputs u.dataInputs u.cands
        = .ok { txId := E.H m, inputs := inputs, dataInputs := u.dataInputs, cands := u.cands, outputs := o } := by
  obtain ⟨h1, ⟨o0, h2⟩, ⟨o, h3⟩⟩ := unsigned_bytes_spec E h
  refine ⟨o, h3, ?_⟩
  unfold Tx.new Tx.calcId
  simp only [h2, Outcome.bind_ok, Tx.bytesToSign_eq, hi, h1, Outcome.pure_eq, h3]

/-- Inversion of the constructor of unsigned transactions. -/
theorem unsigned_new_spec (E : Sers G B T) {is : List (UnsignedInput G B)} {d : Option (List Bytes)}
    {c : List (BoxCand G B T)} {u : UnsignedTransaction G B T} (hu : UnsignedTransaction.new E is d c = .ok u) :
    u.inputs = is ∧ u.dataInputs = d ∧ u.cands = c ∧ ∃ m, u.bytesToSign E = .ok m ∧ u.txId = E.H m := by
  unfold UnsignedTransaction.new at hu
  obtain ⟨m, h1, h2⟩ := Outcome.bind_eq_ok.1 hu
  simp only [Outcome.pure_eq, Outcome.ok.injEq] at h2
  subst h2
  exact ⟨rfl, rfl, rfl, m, h1, rfl⟩

/-! ## Contexts -/

omit [DecidableEq G] in
theorem mapM_some {α β : Type} (f : α → Option β) : ∀ (l : List α) (r : List β), l.mapM f = some r →
    r.length = l.length ∧ ∀ (i : Nat) (a : α), l[i]? = some a → ∃ b, f a = some b ∧ r[i]? = some b
  | [], r, h => by
    simp only [List.mapM_nil, Option.pure_def, Option.some.injEq] at h
    subst h; simp
  | a :: l, r, h => by
    rw [List.mapM_cons] at h
    obtain ⟨b, h1, h2⟩ := Option.bind_eq_some_iff.1 h
    obtain ⟨r', h3, h4⟩ := Option.bind_eq_some_iff.1 h2
    simp only [Option.pure_def, Option.some.injEq] at h4
    subst h4
    obtain ⟨g1, g2⟩ := mapM_some f l r' h3
    refine ⟨by simp [g1], fun i x hx => ?_⟩
    cases i with
    | zero => simp only [List.getElem?_cons_zero, Option.some.injEq] at hx; subst hx; exact ⟨b, h1, rfl⟩
    | succ i => simpa using g2 i x (by simpa using hx)

omit [DecidableEq G] in
theorem mapM_total {α β : Type} (f : α → Option β) : ∀ (l : List α), (∀ a ∈ l, ∃ b, f a = some b) → ∃ r, l.mapM f = some r
  | [], _ => ⟨[], rfl⟩
  | a :: l, h => by
    obtain ⟨b, h1⟩ := h a (by simp)
    obtain ⟨r, h2⟩ := mapM_total f l (fun x hx => h x (by simp [hx]))
    exact ⟨b :: r, by rw [List.mapM_cons, h1, h2]; rfl⟩

omit [DecidableEq G] in
theorem TxBoxes.get_spec {c : TxBoxes G B T} {id : Bytes} {b : EBox G B T} (h : c.get id = some b) :
    b ∈ c.boxes ∧ b.boxId = id := by
  unfold TxBoxes.get at h
  exact ⟨List.mem_of_find?_eq_some h, by simpa using List.find?_some h⟩

omit [DecidableEq G] in
theorem TxBoxes.getData_spec {c : TxBoxes G B T} {id : Bytes} {b : EBox G B T} (h : c.getData id = some b) :
    (∃ l, c.dataBoxes = some l ∧ b ∈ l) ∧ b.boxId = id := by
  unfold TxBoxes.getData at h
  split at h
  · cases h
  · rename_i l hl
    refine ⟨⟨l, hl, List.mem_of_find?_eq_some h⟩, ?_⟩
    have := List.find?_some h
    simp only [decide_eq_true_eq] at this
    exact this.symm

omit [DecidableEq G] in
/-- The lists of ids and of the boxes found for them. -/
theorem ids_of_mapM {f : Bytes → Option (EBox G B T)} (hf : ∀ id b, f id = some b → b.boxId = id) {ids : List Bytes}
    {l : List (EBox G B T)} (h : ids.mapM f = some l) : l.map (·.boxId) = ids := by
  obtain ⟨h1, h2⟩ := mapM_some f ids l h
  apply List.ext_getElem?
  intro i
  rw [List.getElem?_map]
  cases hi : ids[i]? with
  | none =>
    rw [List.getElem?_eq_none_iff] at hi
    rw [List.getElem?_eq_none_iff.2 (by omega)]; rfl
  | some a =>
    obtain ⟨b, h3, h4⟩ := h2 i a hi
    rw [h4, Option.map_some, hf a b h3]

omit [DecidableEq G] in
theorem mem_of_mapM {f : Bytes → Option (EBox G B T)} {P : EBox G B T → Prop} (hf : ∀ id b, f id = some b → P b)
    {ids : List Bytes} {l : List (EBox G B T)} (h : ids.mapM f = some l) : ∀ b ∈ l, P b := by
  obtain ⟨h1, h2⟩ := mapM_some f ids l h
  intro b hb
  obtain ⟨i, hi, rfl⟩ := List.mem_iff_getElem.1 hb
  obtain ⟨b', h3, h4⟩ := h2 i _ (List.getElem?_eq_getElem (by omega : i < ids.length))
  rw [List.getElem?_eq_getElem hi, Option.some.injEq] at h4
  rw [h4]; exact hf _ _ h3

omit [DecidableEq G] in
/-- Every context that is made is as it should be. -/
theorem makeContext_spec (S : StateCtx G) (tx : SpendTx G B T) (c : TxBoxes G B T) (i : Nat) (ctx : ScriptCtx G B T)
    (what : List (Bytes × Extension G B) × Option (List Bytes) × List (BoxCand G B T)) (outs : List (EBox G B T))
    (hids : tx.inputIds = what.1.map Prod.fst) (hd : tx.dataInputs = what.2.1) (ho : tx.outputs = .ok outs)
    (he : ∀ i, tx.extension i = what.1[i]?.map Prod.snd) (h : makeContext S tx c i = .ok ctx) :
    ContextOf S what outs c.boxes (c.dataBoxes.getD []) i ctx ∧ tx.inputIds[i]?.bind c.get = some ctx.selfBox := by
  unfold makeContext at h
  simp only [Outcome.bind_eq_ok, ofOpt_eq_ok, ho] at h
  obtain ⟨id, h1, self, h2, outs', h3, di, h4, ins, h5, ext, h6, h7⟩ := h
  cases h3
  simp only [Outcome.pure_eq, Outcome.ok.injEq] at h7
  subst h7
  obtain ⟨s1, s2⟩ := TxBoxes.get_spec h2
  refine ⟨⟨rfl, rfl, rfl, ?_, ?_, ?_, ?_, ?_, ?_, rfl⟩, by rw [h1]; exact h2⟩
  · rw [hids, List.getElem?_map] at h1
    rw [he] at h6
    cases hw : what.1[i]? with
    | none => rw [hw] at h1; cases h1
    | some p =>
      rw [hw, Option.map_some, Option.some.injEq] at h1 h6
      show some p = some (self.boxId, ext)
      rw [s2, ← h1, ← h6]
  · obtain ⟨b, h8, h9⟩ := (mapM_some _ _ _ h5).2 i id h1
    show ins[i]? = some self
    rw [h9, ← h8, h2]
  · exact (ids_of_mapM (fun _ _ hh => (TxBoxes.get_spec hh).2) h5).trans hids
  · exact mem_of_mapM (fun _ _ hh => (TxBoxes.get_spec hh).1) h5
  · show di.map _ = what.2.1
    rw [← hd]
    cases hdi : tx.dataInputs with
    | none => rw [hdi] at h4; simp only [Outcome.pure_eq, Outcome.ok.injEq] at h4; subst h4; rfl
    | some ids =>
      rw [hdi] at h4
      simp only [Outcome.bind_eq_ok, ofOpt_eq_ok] at h4
      obtain ⟨l, h8, h9⟩ := h4
      simp only [Outcome.pure_eq, Outcome.ok.injEq] at h9
      subst h9
      rw [Option.map_some, ids_of_mapM (fun _ _ hh => (TxBoxes.getData_spec hh).2) h8]
  · intro l hl
    change di = some l at hl
    subst hl
    cases hdi : tx.dataInputs with
    | none => rw [hdi] at h4; simp only [Outcome.pure_eq, Outcome.ok.injEq] at h4; cases h4
    | some ids =>
      rw [hdi] at h4
      simp only [Outcome.bind_eq_ok, ofOpt_eq_ok] at h4
      obtain ⟨l', h8, h9⟩ := h4
      simp only [Outcome.pure_eq, Outcome.ok.injEq, Option.some.injEq] at h9
      subst h9
      refine mem_of_mapM (fun _ _ hh => ?_) h8
      obtain ⟨⟨l0, e1, e2⟩, _⟩ := TxBoxes.getData_spec hh
      rw [e1]; exact e2

omit [DecidableEq G] in
/-- What the constructor of the box lists checks. -/
theorem TxBoxes.new_spec {tx : SpendTx G B T} {boxes dataBoxes : List (EBox G B T)} {c : TxBoxes G B T}
    (h : TxBoxes.new tx boxes dataBoxes = .ok c) :
    c.boxes = boxes ∧ c.dataBoxes.getD [] = dataBoxes ∧ (∀ id ∈ tx.inputIds, ∃ b, c.get id = some b) ∧
      ∀ l, tx.dataInputs = some l → ∀ id ∈ l, ∃ b, c.getData id = some b := by
  unfold TxBoxes.new at h
  simp only [Outcome.bind_eq_ok, ofOpt_eq_ok] at h
  obtain ⟨bs, h1, h2⟩ := h
  have hbs : bs = boxes := by
    unfold ioVec at h1; split at h1
    · exact (Option.some.inj h1).symm
    · cases h1
  subst hbs
  split at h2
  · cases h2
  rename_i hall
  simp only [Bool.not_eq_true, Bool.not_eq_false', List.all_eq_true, List.any_eq_true, decide_eq_true_eq] at hall
  obtain ⟨ds, h3, h4⟩ := Outcome.bind_eq_ok.1 h2
  rw [ofOpt_eq_ok] at h3
  have hds : ds.getD [] = dataBoxes := by
    unfold optIoVec ioVec at h3
    split at h3
    · rename_i he
      cases h3
      simpa using (List.isEmpty_iff.1 he).symm
    · split at h3
      · cases h3; rfl
      · cases h3
  have hget : ∀ (ds' : Option (List (EBox G B T))), ∀ id ∈ tx.inputIds, ∃ b, TxBoxes.get ⟨bs, ds'⟩ id = some b := by
    intro ds' id hid
    obtain ⟨b, hb, he⟩ := hall id hid
    unfold TxBoxes.get
    rw [← Option.isSome_iff_exists, List.find?_isSome]
    exact ⟨b, hb, by simp [he]⟩
  split at h4
  · cases h4
    rename_i hdi
    exact ⟨rfl, hds, hget _, by rw [hdi]; intro l hl; cases hl⟩
  · rename_i ids l hdi
    split at h4
    · rename_i hall2
      cases h4
      refine ⟨rfl, hds, hget _, fun l' hl' id hid => ?_⟩
      rw [hdi, Option.some.injEq] at hl'
      subst hl'
      simp only [List.all_eq_true, List.any_eq_true, decide_eq_true_eq] at hall2
      obtain ⟨b, hb, he⟩ := hall2 id hid
      unfold TxBoxes.getData
      simp only
      rw [← Option.isSome_iff_exists, List.find?_isSome]
      exact ⟨b, hb, by simp [he]⟩
    · cases h4
  · cases h4

omit [DecidableEq G] in
/-- Every context of a transaction with its boxes can be made. -/
theorem makeContext_ok (S : StateCtx G) {tx : SpendTx G B T} {c : TxBoxes G B T} {i : Nat} {outs : List (EBox G B T)}
    {ext : Extension G B} (ho : tx.outputs = .ok outs) (he : tx.extension i = some ext) (hi : i < tx.inputIds.length)
    (h1 : ∀ id ∈ tx.inputIds, ∃ b, c.get id = some b)
    (h2 : ∀ l, tx.dataInputs = some l → ∀ id ∈ l, ∃ b, c.getData id = some b) :
    ∃ ctx, makeContext S tx c i = .ok ctx := by
  obtain ⟨b, hb⟩ := h1 tx.inputIds[i] (List.getElem_mem hi)
  obtain ⟨ins, hins⟩ := mapM_total c.get tx.inputIds h1
  unfold makeContext
  simp only [List.getElem?_eq_getElem hi, ofOpt, Outcome.bind_ok, hb, ho, hins, he]
  cases hdi : tx.dataInputs with
  | none => exact ⟨_, rfl⟩
  | some ids =>
    obtain ⟨l, hl⟩ := mapM_total c.getData ids (h2 ids hdi)
    simp only [hl, Outcome.bind_ok, Outcome.pure_eq]
    exact ⟨_, rfl⟩

/-! ## Signed inputs -/

section
variable {q : Nat} [AddCommGroup G] [Module (ZMod q) G]

/-- The signed inputs, one by one. -/
theorem signInputs_spec (reduce : Reduce G B T) (P : WalletP G q) (E : Sers G B T) (S : StateCtx G)
    (u : UnsignedTransaction G B T) (c : TxBoxes G B T) (hints : Option (TxHints G q)) (m : Bytes) :
    ∀ (n i : Nat) (l : List (Input G B)), signInputs reduce P E S u c hints m i n = .ok l ↔
      l.length = n ∧ ∀ k x, l[k]? = some x → signTxInput reduce P E S u c hints (i + k) m = .ok x
  | 0, i, l => by
    simp only [signInputs, Outcome.ok.injEq]
    constructor
    · rintro rfl; simp
    · rintro ⟨h, _⟩; exact (List.length_eq_zero_iff.1 h).symm
  | n + 1, i, l => by
    simp only [signInputs, Outcome.bind_eq_ok, Outcome.pure_eq, Outcome.ok.injEq,
      signInputs_spec reduce P E S u c hints m n (i + 1)]
    constructor
    · rintro ⟨x, h1, l', ⟨h2, h3⟩, rfl⟩
      refine ⟨by simp [h2], fun k y hy => ?_⟩
      cases k with
      | zero => simp only [List.getElem?_cons_zero, Option.some.injEq] at hy; subst hy; simpa using h1
      | succ k =>
        rw [List.getElem?_cons_succ] at hy
        have := h3 k y hy
        rwa [show i + 1 + k = i + (k + 1) by omega] at this
    · rintro ⟨h1, h2⟩
      cases l with
      | nil => simp at h1
      | cons x l' =>
        refine ⟨x, by simpa using h2 0 x rfl, l', ⟨by simpa using h1, fun k y hy => ?_⟩, rfl⟩
        have := h2 (k + 1) y (by simpa using hy)
        rwa [show i + (k + 1) = i + 1 + k by omega] at this

/-- The reduced inputs, one by one. -/
theorem reduceInputs_spec (reduce : Reduce G B T) (S : StateCtx G) (tx : SpendTx G B T) (c : TxBoxes G B T) :
    ∀ (ins : List (UnsignedInput G B)) (i : Nat) (l : List (ReducedInput G B)),
      reduceInputs reduce S tx c i ins = .ok l ↔
        l.length = ins.length ∧ ∀ k inp r, ins[k]? = some inp → l[k]? = some r →
          ∃ e, inputProp reduce S tx c (i + k) inp.boxId = .ok (r.prop, e) ∧ r.cost = 0 ∧ r.extension = inp.extension
  | [], i, l => by
    simp only [reduceInputs, Outcome.ok.injEq, List.length_nil]
    constructor
    · rintro rfl; simp
    · rintro ⟨h, _⟩; exact (List.length_eq_zero_iff.1 h).symm
  | a :: ins, i, l => by
    simp only [reduceInputs, Outcome.bind_eq_ok, Outcome.pure_eq, Outcome.ok.injEq,
      reduceInputs_spec reduce S tx c ins (i + 1)]
    constructor
    · rintro ⟨⟨sb, e⟩, h1, l', ⟨h2, h3⟩, rfl⟩
      refine ⟨by simp [h2], fun k inp r hi hr => ?_⟩
      cases k with
      | zero =>
        simp only [List.getElem?_cons_zero, Option.some.injEq] at hi hr
        subst hi; subst hr
        exact ⟨e, by simpa using h1, rfl, rfl⟩
      | succ k =>
        rw [List.getElem?_cons_succ] at hi hr
        have := h3 k inp r hi hr
        rwa [show i + 1 + k = i + (k + 1) by omega] at this
    · rintro ⟨h1, h2⟩
      cases l with
      | nil => simp at h1
      | cons x l' =>
        obtain ⟨e, g1, g2, g3⟩ := h2 0 a x rfl rfl
        refine ⟨(x.prop, e), by simpa using g1, l', ⟨by simpa using h1, fun k inp r hi hr => ?_⟩, ?_⟩
        · have := h2 (k + 1) inp r (by simpa using hi) (by simpa using hr)
          rwa [show i + (k + 1) = i + 1 + k by omega] at this
        · rw [← g2, ← g3]

/-- The inputs signed from the reduced ones. -/
theorem signReducedInputs_spec (P : WalletP G q) (hints : Option (TxHints G q)) (m : Bytes)
    (red : List (ReducedInput G B)) :
    ∀ (ins : List (UnsignedInput G B)) (i : Nat) (l : List (Input G B)),
      signReducedInputs P hints m red i ins = .ok l ↔
        l.length = ins.length ∧ ∀ k inp x, ins[k]? = some inp → l[k]? = some x →
          ∃ r pr, red[i + k]? = some r ∧ P.proof hints (i + k) r.prop m = .ok pr ∧ x = ⟨inp.boxId, ⟨pr, r.extension⟩⟩
  | [], i, l => by
    simp only [signReducedInputs, Outcome.ok.injEq, List.length_nil]
    constructor
    · rintro rfl; simp
    · rintro ⟨h, _⟩; exact (List.length_eq_zero_iff.1 h).symm
  | a :: ins, i, l => by
    constructor
    · intro h
      simp only [signReducedInputs] at h
      split at h
      · cases h
      rename_i r hr
      simp only [Outcome.bind_eq_ok, Outcome.pure_eq, Outcome.ok.injEq,
        signReducedInputs_spec P hints m red ins (i + 1)] at h
      obtain ⟨pr, h1, l', ⟨h2, h3⟩, rfl⟩ := h
      refine ⟨by simp [h2], fun k inp x hi hx => ?_⟩
      cases k with
      | zero =>
        simp only [List.getElem?_cons_zero, Option.some.injEq] at hi hx
        subst hi; subst hx
        exact ⟨r, pr, by simpa using hr, by simpa using h1, rfl⟩
      | succ k =>
        rw [List.getElem?_cons_succ] at hi hx
        have := h3 k inp x hi hx
        rwa [show i + 1 + k = i + (k + 1) by omega] at this
    · rintro ⟨h1, h2⟩
      cases l with
      | nil => simp at h1
      | cons x l' =>
        obtain ⟨r, pr, g1, g2, g3⟩ := h2 0 a x rfl rfl
        simp only [signReducedInputs]
        rw [Nat.add_zero] at g1 g2
        rw [g1]
        simp only [g2, Outcome.bind_ok]
        have := (signReducedInputs_spec P hints m red ins (i + 1) l').2 ⟨by simpa using h1, fun k inp y hi hy => by
          have := h2 (k + 1) inp y (by simpa using hi) (by simpa using hy)
          rwa [show i + (k + 1) = i + 1 + k by omega] at this⟩
        rw [this, g3]; rfl

omit [AddCommGroup G] [Module (ZMod q) G] in
/-- The extension of a context of an unsigned transaction is that of the input. -/
theorem inputProp_ext {reduce : Reduce G B T} {E : Sers G B T} {S : StateCtx G} {u : UnsignedTransaction G B T}
    {c : TxBoxes G B T} {i : Nat} {id : Bytes} {p : SigmaBoolean G × Extension G B} {inp : UnsignedInput G B}
    (hi : u.inputs[i]? = some inp) (h : inputProp reduce S (u.spend E) c i id = .ok p) : p.2 = inp.extension := by
  unfold inputProp at h
  simp only [Outcome.bind_eq_ok, ofOpt_eq_ok] at h
  obtain ⟨b, h1, ctx, h2, sb, h3, h4⟩ := h
  simp only [Outcome.pure_eq, Outcome.ok.injEq] at h4
  subst h4
  unfold makeContext at h2
  simp only [Outcome.bind_eq_ok, ofOpt_eq_ok] at h2
  obtain ⟨_, _, _, _, _, _, _, _, _, _, ext, h6, h7⟩ := h2
  simp only [Outcome.pure_eq, Outcome.ok.injEq] at h7
  subst h7
  change u.inputs[i]?.map UnsignedInput.extension = some ext at h6
  rw [hi, Option.map_some, Option.some.injEq] at h6
  exact h6.symm

/-- One signed input. -/
theorem signTxInput_spec {reduce : Reduce G B T} {P : WalletP G q} {E : Sers G B T} {S : StateCtx G}
    {u : UnsignedTransaction G B T} {c : TxBoxes G B T} {hints : Option (TxHints G q)} {i : Nat} {m : Bytes}
    {inp : UnsignedInput G B} (hi : u.inputs[i]? = some inp) (x : Input G B) :
    signTxInput reduce P E S u c hints i m = .ok x ↔
      ∃ sb pr, inputProp reduce S (u.spend E) c i inp.boxId = .ok (sb, inp.extension) ∧
        P.proof hints i sb m = .ok pr ∧ x = ⟨inp.boxId, ⟨pr, inp.extension⟩⟩ := by
  unfold signTxInput
  simp only [Outcome.bind_eq_ok, ofOpt_eq_ok, hi, Option.some.injEq, exists_eq_left', Outcome.pure_eq, Outcome.ok.injEq]
  constructor
  · rintro ⟨⟨sb, e⟩, h1, pr, h2, rfl⟩
    have := inputProp_ext hi h1
    simp only at this
    subst this
    exact ⟨sb, pr, h1, h2, rfl⟩
  · rintro ⟨sb, pr, h1, h2, rfl⟩
    exact ⟨(sb, inp.extension), h1, pr, h2, rfl⟩

/-- Signed inputs differ from the unsigned ones in their proofs only. -/
theorem signInputs_toSign {reduce : Reduce G B T} {P : WalletP G q} {E : Sers G B T} {S : StateCtx G}
    {u : UnsignedTransaction G B T} {c : TxBoxes G B T} {hints : Option (TxHints G q)} {m : Bytes} {l : List (Input G B)}
    (h : signInputs reduce P E S u c hints m 0 u.inputs.length = .ok l) :
    l.map Input.toSign = u.inputs.map UnsignedInput.toSign := by
  rw [signInputs_spec] at h
  obtain ⟨h1, h2⟩ := h
  apply List.ext_getElem?
  intro i
  rw [List.getElem?_map, List.getElem?_map]
  cases hi : u.inputs[i]? with
  | none =>
    rw [List.getElem?_eq_none_iff] at hi
    rw [List.getElem?_eq_none_iff.2 (by omega)]; rfl
  | some inp =>
    have hlt : i < u.inputs.length := (List.getElem?_eq_some_iff.1 hi).1
    have hx := List.getElem?_eq_getElem (by omega : i < l.length)
    have := h2 i _ hx
    rw [Nat.zero_add, signTxInput_spec hi] at this
    obtain ⟨sb, pr, _, _, g⟩ := this
    rw [hx, Option.map_some, Option.map_some, g]
    rfl

/-- Inversion of signing. -/
theorem signTransaction_spec {reduce : Reduce G B T} {P : WalletP G q} {E : Sers G B T} {S : StateCtx G}
    {u : UnsignedTransaction G B T} {c : TxBoxes G B T} {hints : Option (TxHints G q)} {t : Tx G B T} :
    signTransaction reduce P E S u c hints = .ok t ↔
      ∃ m o, u.bytesToSign E = .ok m ∧ outputsFrom E (E.H m) 0 u.cands = .ok o ∧
        signInputs reduce P E S u c hints m 0 u.inputs.length = .ok t.inputs ∧
        t = { txId := E.H m, inputs := t.inputs, dataInputs := u.dataInputs, cands := u.cands, outputs := o } := by
  unfold signTransaction
  simp only [Outcome.bind_eq_ok]
  constructor
  · rintro ⟨m, h1, l, h2, h3⟩
    obtain ⟨o, h4, h5⟩ := signed_new E h1 (signInputs_toSign h2)
    rw [h5, Outcome.ok.injEq] at h3
    subst h3
    exact ⟨m, o, h1, h4, h2, rfl⟩
  · rintro ⟨m, o, h1, h2, h3, h4⟩
    refine ⟨m, h1, t.inputs, h3, ?_⟩
    obtain ⟨o', h5, h6⟩ := signed_new E h1 (signInputs_toSign h3)
    rw [h2, Outcome.ok.injEq] at h5
    rw [h6, ← h5, ← h4]

/-- A signed transaction spends what the unsigned one asked to spend: the four methods agree. -/
theorem spend_eq {E : Sers G B T} {u : UnsignedTransaction G B T} {t : Tx G B T}
    (he : essence t = unsignedEssence u) (ho : outputsFrom E u.txId 0 u.cands = .ok t.outputs) : t.spend = u.spend E := by
  unfold essence unsignedEssence at he
  simp only [Prod.mk.injEq] at he
  obtain ⟨h1, h2, h3⟩ := he
  unfold Tx.spend UnsignedTransaction.spend
  congr 1
  · have := congrArg (List.map Prod.fst) h1
    simpa only [List.map_map, Function.comp_def] using this
  · rw [ho]
  · funext i
    have := congrArg (fun l => (l[i]?).map Prod.snd) h1
    simpa only [List.getElem?_map, Option.map_map, Function.comp_def] using this

/-- The proof of a provable proposition is accepted. -/
theorem proof_accepted [NeZero q] (hq : q ≤ 2 ^ 256) (P : WalletP G q) (hone : P.curve.codec.one = 0)
    (hs : SecretsOk P.secrets) (i : Nat) (sb : SigmaBoolean G) (hp : Provable P.curve.gen P.secrets sb) (m : Bytes) :
    ∃ pr, P.proof none i sb m = .ok pr ∧ verifyProof q P.curve sb pr m = .ok true := by
  rcases hp with rfl | ⟨h1, h2, h3, h4, h5⟩
  · exact ⟨.empty, rfl, rfl⟩
  · obtain ⟨sig, g1, g2⟩ := C21_accepted_partial hq
      { curve := P.curve, secrets := P.secrets, hints := [], rnd := P.rnd i } rfl hone hs sb h1 h2 h3 h4 h5 m
    refine ⟨match sb with | .trivial _ => .empty | _ => .some sig, ?_, ?_⟩
    · unfold WalletP.proof hintsFor
      simp only [g1, Outcome.bind_ok, Outcome.pure_eq]
      cases sb <;> rfl
    · have hne : sig ≠ [] := by
        rintro rfl
        cases sb with
        | trivial b => simp [NoTrivial] at h1
        | _ => simp [verifySignature] at g2
      cases sb with
      | trivial b => simp [NoTrivial] at h1
      | _ => simpa [verifySignature, verifyProof, hne] using g2

/-- An unprovable proposition gets no proof. -/
theorem proof_refused (P : WalletP G q) (hone : P.curve.codec.one = 0) (i : Nat) (sb : SigmaBoolean G)
    (hp : Unprovable P.curve.gen P.secrets sb) (m : Bytes) : P.proof none i sb m = .err := by
  rcases hp with rfl | ⟨h1, h2⟩
  · rfl
  · unfold WalletP.proof hintsFor
    rw [C21_refused { curve := P.curve, secrets := P.secrets, hints := [], rnd := P.rnd i } rfl hone sb h1 h2 m]
    rfl

end
end
end Verif
