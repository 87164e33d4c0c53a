import Verif.Spec.JointTx
import Verif.Props.JsonHint
import Verif.Props.Signing

set_option linter.unusedSimpArgs false
set_option linter.unusedVariables false

/-!
# Several wallets sign a transaction together: helper lemmas
-/

namespace Verif
open Verif.Sigma Verif.Spec Verif.Json

section
variable {G B T : Type} {q : Nat}

/-! ## Bags -/

theorem addFor_perm (b : TxHints G q) (i j : Nat) (hs : List (Hint G q)) :
    ((b.addFor i hs).allFor j).Perm ((if i = j then hs else []) ++ b.allFor j) := by
  unfold TxHints.addFor TxHints.allFor
  simp only [FMap.get_insert]
  by_cases h : i = j
  · subst h
    simp only [if_true, Option.getD_some]
    have hc : (Hint.isCommitment : Hint G q → Bool) = fun x => !Hint.isProven x := by funext x; cases x <;> rfl
    have hp : (hs.filter Hint.isProven ++ hs.filter Hint.isCommitment).Perm hs := by
      rw [hc]; exact List.filter_append_perm _ _
    refine List.Perm.trans ?_ (List.Perm.append_right _ hp)
    simp only [List.append_assoc]
    refine List.Perm.append_left _ ?_
    rw [← List.append_assoc, ← List.append_assoc]
    exact List.Perm.append_right _ List.perm_append_comm
  · simp only [if_neg h, List.nil_append]
    exact List.Perm.refl _

theorem empty_allFor (i : Nat) : (TxHints.empty : TxHints G q).allFor i = [] := rfl

theorem foldAdd_perm (f : Nat → List (Hint G q)) (j : Nat) : ∀ (l : List Nat) (b : TxHints G q), l.Nodup →
    ((l.foldl (fun x i => x.addFor i (f i)) b).allFor j).Perm ((if j ∈ l then f j else []) ++ b.allFor j)
  | [], b, _ => by simp
  | i :: l, b, hn => by
    obtain ⟨h1, h2⟩ := List.nodup_cons.1 hn
    refine (foldAdd_perm f j l _ h2).trans ?_
    refine (List.Perm.append_left _ (addFor_perm b i j (f i))).trans ?_
    by_cases hij : i = j
    · subst hij
      simp [h1]
    · have : j ∈ i :: l ↔ j ∈ l := by simp [Ne.symm hij]
      simp only [this, if_neg hij, List.nil_append]
      exact List.Perm.refl _

theorem publicBag_perm (n : Nat) (b : TxHints G q) (i : Nat) (hi : i < n) :
    ((publicBag n b).allFor i).Perm (publicPart (b.allFor i)) := by
  have := foldAdd_perm (fun i => publicPart (b.allFor i)) i (List.range n) .empty List.nodup_range
  rw [if_pos (List.mem_range.2 hi), empty_allFor, List.append_nil] at this
  exact this

theorem joinBags_joins (n : Nat) : Joins n (joinBags n : List (TxHints G q) → TxHints G q) := by
  intro bs i hi
  have key : ∀ (bs : List (TxHints G q)) (acc : TxHints G q),
      ((bs.foldl (fun acc b => (List.range n).foldl (fun x i => x.addFor i (b.allFor i)) acc) acc).allFor i).Perm
        ((bs.flatMap fun b => b.allFor i) ++ acc.allFor i) := by
    intro bs
    induction bs with
    | nil => intro acc; exact List.Perm.refl _
    | cons b bs ih =>
      intro acc
      refine (ih _).trans ?_
      have := foldAdd_perm (fun i => b.allFor i) i (List.range n) acc List.nodup_range
      rw [if_pos (List.mem_range.2 hi)] at this
      refine (List.Perm.append_left _ this).trans ?_
      rw [List.flatMap_cons, ← List.append_assoc]
      exact List.Perm.append_right _ List.perm_append_comm
  have := key bs .empty
  rwa [empty_allFor, List.append_nil] at this

theorem mem_insert_bag {κ ν : Type} [DecidableEq κ] (m : FMap κ ν) (k : κ) (v : ν) (p : κ × ν) (h : p ∈ FMap.insert m k v) :
    p = (k, v) ∨ p ∈ m := by
  induction m with
  | nil => simp [FMap.insert] at h; exact .inl h
  | cons a m ih =>
    obtain ⟨k0, v0⟩ := a
    rw [FMap.insert] at h
    split at h
    · rcases List.mem_cons.1 h with h | h
      · exact .inl h
      · exact .inr (List.mem_cons_of_mem _ h)
    · rcases List.mem_cons.1 h with h | h
      · exact .inr (h ▸ List.mem_cons_self)
      · rcases ih h with h | h
        · exact .inl h
        · exact .inr (List.mem_cons_of_mem _ h)

theorem empty_good : GoodBag (TxHints.empty : TxHints G q) :=
  ⟨FMap.Ok.nil, FMap.Ok.nil, (by intro _ h; cases h), (by intro _ h; cases h), (by intro _ h; cases h), (by intro _ h; cases h)⟩

theorem get_good {m : FMap Nat (List (Hint G q))} (h : ∀ p ∈ m, ∀ x ∈ p.2, GoodHint x) (i : Nat) : ∀ x ∈ (m.get i).getD [], GoodHint x := by
  intro x hx
  cases hg : m.get i with
  | none => rw [hg] at hx; cases hx
  | some l =>
    rw [hg] at hx
    exact h _ (FMap.get_some_mem hg) x hx

theorem allFor_good {b : TxHints G q} (hb : GoodBag b) (i : Nat) : ∀ x ∈ b.allFor i, GoodHint x := by
  intro x hx
  rcases List.mem_append.1 hx with h | h
  · exact get_good hb.secretHints i x h
  · exact get_good hb.publicHints i x h

theorem addFor_good {b : TxHints G q} (hb : GoodBag b) {i : Nat} (hi : i < 2 ^ 64) {hs : List (Hint G q)} (hh : ∀ h ∈ hs, GoodHint h) :
    GoodBag (b.addFor i hs) := by
  refine ⟨hb.secretKeys.insert _ _, hb.publicKeys.insert _ _, ?_, ?_, ?_, ?_⟩
  · intro p hp
    rcases mem_insert_bag _ _ _ _ hp with rfl | h
    · exact hi
    · exact hb.secretIndex p h
  · intro p hp
    rcases mem_insert_bag _ _ _ _ hp with rfl | h
    · exact hi
    · exact hb.publicIndex p h
  · intro p hp
    rcases mem_insert_bag _ _ _ _ hp with rfl | h
    · intro x hx
      rcases List.mem_append.1 hx with hx | hx
      · exact hh x (List.mem_filter.1 hx).1
      · exact get_good hb.secretHints i x hx
    · exact hb.secretHints p h
  · intro p hp
    rcases mem_insert_bag _ _ _ _ hp with rfl | h
    · intro x hx
      rcases List.mem_append.1 hx with hx | hx
      · exact hh x (List.mem_filter.1 hx).1
      · exact get_good hb.publicHints i x hx
    · exact hb.publicHints p h

theorem foldAdd_good (f : Nat → List (Hint G q)) : ∀ (l : List Nat) (b : TxHints G q), GoodBag b → (∀ i ∈ l, i < 2 ^ 64) →
    (∀ i ∈ l, ∀ h ∈ f i, GoodHint h) → GoodBag (l.foldl (fun x i => x.addFor i (f i)) b)
  | [], b, hb, _, _ => hb
  | i :: l, b, hb, h1, h2 =>
    foldAdd_good f l _ (addFor_good hb (h1 i List.mem_cons_self) (h2 i List.mem_cons_self))
      (fun j hj => h1 j (List.mem_cons_of_mem _ hj)) (fun j hj => h2 j (List.mem_cons_of_mem _ hj))

theorem publicBag_good (n : Nat) (hn : n ≤ 2 ^ 64) (b : TxHints G q) (hb : ∀ i < n, ∀ h ∈ b.allFor i, GoodHint h) : GoodBag (publicBag n b) := by
  refine foldAdd_good _ _ _ empty_good (fun i hi => ?_) (fun i hi h hh => ?_)
  · have := List.mem_range.1 hi; omega
  · exact hb i (List.mem_range.1 hi) h (List.mem_filter.1 hh).1

/-! ## Permutations and what is forgotten -/

theorem perm_map_lift {α β : Type} (f : α → β) {l' m : List β} (h : l'.Perm m) : ∀ l : List α, l.map f = m →
    ∃ l'' : List α, l''.Perm l ∧ l''.map f = l' := by
  induction h with
  | nil => intro l hl; rw [List.map_eq_nil_iff] at hl; subst hl; exact ⟨[], List.Perm.refl _, rfl⟩
  | cons x _ ih =>
    intro l hl
    obtain ⟨a, l1, rfl, h1, h2⟩ := List.map_eq_cons_iff.1 hl
    obtain ⟨l2, h3, h4⟩ := ih l1 h2
    exact ⟨a :: l2, h3.cons a, by rw [List.map_cons, h1, h4]⟩
  | swap x y t =>
    intro l hl
    obtain ⟨a, l1, rfl, h1, h2⟩ := List.map_eq_cons_iff.1 hl
    obtain ⟨b, l2, rfl, h3, h4⟩ := List.map_eq_cons_iff.1 h2
    exact ⟨b :: a :: l2, List.Perm.swap _ _ _, by rw [List.map_cons, List.map_cons, h1, h3, h4]⟩
  | trans _ _ ih1 ih2 =>
    intro l hl
    obtain ⟨l2, h1, h2⟩ := ih2 l hl
    obtain ⟨l3, h3, h4⟩ := ih1 l2 h2
    exact ⟨l3, h3.trans h1, h4⟩

section
variable [DecidableEq G] [AddCommGroup G] [Module (ZMod q) G]

theorem generateProof_eq_of_forget (E : ProverEnv G q) (hs : List (Hint G q)) (h : hs.map forgetHint = E.hints.map forgetHint)
    (sb : SigmaBoolean G) (m : Bytes) : generateProof { E with hints := hs } sb m = generateProof E sb m := by
  rw [← generateProof_forget E, ← generateProof_forget { E with hints := hs }]
  unfold forgetEnv
  rw [h]

/-- `turn` for hints that are, up to the commitments inside proofs and their order, the right ones; with the verdict of the verifier when
all have signed. -/
theorem turnSent [NeZero q] (hq : q ≤ 2 ^ 256) (C : Curve G) (hone : C.codec.one = 0) (sb : SigmaBoolean G) (ss : List (Signer G q))
    (hb : sb.Bounded) (ha : AndOnly sb)
    (hdis : ∀ s ∈ ss, ∀ t ∈ ss, ∀ x ∈ leaves sb, x.1.toSB ∈ s.images C → x.1.toSB ∈ t.images C → s = t)
    (hcov : ∀ x ∈ leaves sb, ∃ s ∈ ss, x.1.toSB ∈ s.images C) (hok : ∀ s ∈ ss, SecretsOk s.secrets)
    (message bs : Bytes) (e : Challenge) (hbs : fsUnchecked C.codec (UT (fun p pos => some (cmOf C ss p pos)) e (fun _ => (0 : ZMod q)) sb cryptoTreePrefix) = .ok bs)
    (he : e = fsHash C.hash (bs ++ message)) (done : List (SigmaBoolean G)) (ex : List (Hint G q)) (hex : Extracted C sb ss e done ex)
    (s : Signer G q) (hs : s ∈ ss) (hints : List (Hint G q))
    (hp : (hints.map forgetHint).Perm ((s.commitments C sb ++ announced C sb ss ++ ex).map forgetHint)) :
    ∃ sig, generateProof ⟨C, s.secrets, hints, s.rnd⟩ sb message = .ok sig ∧
      (∃ ex', bagForMultiSig C sb (done ++ s.images C) [] sig = .ok ex' ∧ Extracted C sb ss e (done ++ s.images C) ex') ∧
      ((∀ x ∈ leaves sb, x.1.toSB ∈ done ∨ x.1.toSB ∈ s.images C) → verifySignature q C sb message sig = .ok true) := by
  obtain ⟨h2, hp2, hm2⟩ := perm_map_lift forgetHint hp _ rfl
  have hgen := generateProof_eq_of_forget ⟨C, s.secrets, h2, s.rnd⟩ hints hm2.symm sb message
  simp only at hgen
  obtain ⟨z, sig, g1, _, _, ex', g4, g5⟩ := turn C sb ss hq hone hb ha hdis hcov hok message bs e hbs he done ex hex s hs h2
    (fun h => by rw [hp2.mem_iff]; simp only [List.mem_append, or_assoc])
  refine ⟨sig, hgen.trans g1, ⟨ex', g4, g5⟩, fun hall => ?_⟩
  classical
  obtain ⟨sig', v1, v2⟩ := session C sb ss hq hone hb ha hdis hcov hok
    (fun l => if l = s.commitments C sb ++ announced C sb ss ++ ex then h2 else l)
    (by
      intro l h
      by_cases hl : l = s.commitments C sb ++ announced C sb ss ++ ex
      · rw [if_pos hl, hl]; exact hp2.mem_iff
      · rw [if_neg hl])
    message bs e hbs he [s] done ex hex (by simp) (by simpa using hs) (by
      intro x hx
      rcases hall x hx with h | h
      · exact .inl h
      · exact .inr ⟨s, by simp, h⟩)
  rw [signInTurn, if_pos rfl, g1] at v1
  cases v1
  exact v2

/-! ## Whole transactions -/

/-- Signing succeeds if the proof for every input does. -/
theorem sign_all (reduce : Reduce G B T) (P : WalletP G q) (E : Sers G B T) (S : StateCtx G)
    (is : List (UnsignedInput G B)) (d : Option (List Bytes)) (cands : List (BoxCand G B T)) (u : UnsignedTransaction G B T)
    (hu : UnsignedTransaction.new E is d cands = .ok u) (c : TxBoxes G B T) (hints : Option (TxHints G q)) (m : Bytes)
    (hm : u.bytesToSign E = .ok m)
    (h : ∀ i inp, u.inputs[i]? = some inp → ∃ sb pr, inputProp reduce S (u.spend E) c i inp.boxId = .ok (sb, inp.extension) ∧
      P.proof hints i sb m = .ok pr) :
    ∃ t, signTransaction reduce P E S u c hints = .ok t ∧ t.inputs.length = u.inputs.length ∧ t.spend = u.spend E ∧
      t.bytesToSign E = .ok m ∧ essence t = unsignedEssence u ∧
      ∀ i inp, u.inputs[i]? = some inp → ∃ sb pr, inputProp reduce S (u.spend E) c i inp.boxId = .ok (sb, inp.extension) ∧
        P.proof hints i sb m = .ok pr ∧ t.inputs[i]? = some ⟨inp.boxId, ⟨pr, inp.extension⟩⟩ := by
  obtain ⟨h1, h2, h3, m', h4, h5⟩ := unsigned_new_spec E hu
  rw [hm, Outcome.ok.injEq] at h4
  subst h4
  have hex : ∃ l : List (Input G B), signInputs reduce P E S u c hints m 0 u.inputs.length = .ok l := by
    have : ∀ n i, i + n = u.inputs.length → ∃ l : List (Input G B), signInputs reduce P E S u c hints m i n = .ok l := by
      intro n
      induction n with
      | zero => intro i _; exact ⟨[], rfl⟩
      | succ n ih =>
        intro i hin
        obtain ⟨l, hl⟩ := ih (i + 1) (by omega)
        have hi : u.inputs[i]? = some u.inputs[i] := List.getElem?_eq_getElem (by omega)
        obtain ⟨sb, pr, k1, k2⟩ := h i _ hi
        have := (signTxInput_spec (P := P) (hints := hints) (m := m) hi _).2 ⟨sb, pr, k1, k2, rfl⟩
        refine ⟨⟨u.inputs[i].boxId, ⟨pr, u.inputs[i].extension⟩⟩ :: l, ?_⟩
        simp only [signInputs, this, hl, Outcome.bind_ok, Outcome.pure_eq]
    exact this _ 0 (by omega)
  obtain ⟨l, hl⟩ := hex
  obtain ⟨o, ho, hn⟩ := signed_new E hm (signInputs_toSign hl)
  have hsign : signTransaction reduce P E S u c hints
      = .ok { txId := E.H m, inputs := l, dataInputs := u.dataInputs, cands := u.cands, outputs := o } := by
    rw [signTransaction_spec]
    exact ⟨m, o, hm, ho, hl, rfl⟩
  obtain ⟨e1, e2, e3, e4, e5⟩ := C64_same reduce P E S S is d cands u hu c c hints _ hsign
  obtain ⟨hlen, hall⟩ := (signInputs_spec reduce P E S u c hints m _ 0 l).1 hl
  refine ⟨_, hsign, hlen, spend_eq (E := E) (u := u) e1 (by rw [h5]; exact ho), by rw [e3, hm], e1, fun i inp hi => ?_⟩
  have hlt : i < u.inputs.length := (List.getElem?_eq_some_iff.1 hi).1
  have hli : l[i]? = some l[i] := List.getElem?_eq_getElem (by omega)
  have hone' := hall i _ hli
  rw [Nat.zero_add, signTxInput_spec hi] at hone'
  obtain ⟨sb, pr, k1, k2, k3⟩ := hone'
  exact ⟨sb, pr, k1, k2, by rw [← k3]; exact hli⟩

/-- Extraction succeeds if it does for every input; the bag is good if the propositions are. -/
theorem extract_all (reduce : Reduce G B T) (C : Curve G) (S : StateCtx G) (tx : SpendTx G B T) (c : TxBoxes G B T)
    (real sim : List (SigmaBoolean G)) : ∀ (l : List (Input G B)) (k : Nat) (b0 : TxHints G q), k + l.length ≤ 2 ^ 64 → GoodBag b0 →
    (∀ j x, l[j]? = some x → ∃ sb ext hs, inputProp reduce S tx c (k + j) x.boxId = .ok (sb, ext) ∧ sb.Bounded ∧
      bagForMultiSig (q := q) C sb real sim x.proof.proof.toBytes = .ok hs) →
    ∃ b, extractInputs reduce C S tx c real sim k l b0 = .ok b ∧ GoodBag b
  | [], k, b0, _, hb, _ => ⟨b0, rfl, hb⟩
  | x :: l, k, b0, hk, hb, h => by
    obtain ⟨sb, ext, hs, h1, h2, h3⟩ := h 0 x rfl
    rw [Nat.add_zero] at h1
    simp only [List.length_cons] at hk
    obtain ⟨b, h4, h5⟩ := extract_all reduce C S tx c real sim l (k + 1) (b0.addFor k hs) (by omega)
      (addFor_good hb (by omega) (bag_good C sb h2 real sim _ hs h3)) (fun j y hj => by
        obtain ⟨sb', ext', hs', g1, g2⟩ := h (j + 1) y (by simpa using hj)
        exact ⟨sb', ext', hs', by rw [show k + 1 + j = k + (j + 1) by omega]; exact g1, g2⟩)
    refine ⟨b, ?_, h5⟩
    rw [extractInputs, h1, Outcome.bind_ok]
    simp only
    rw [h3, Outcome.bind_ok, h4]

/-- The commitments of a signer for each input. -/
theorem commit_all (reduce : Reduce G B T) (C : Curve G) (r : Nat → Position → ZMod q) (E : Sers G B T) (S : StateCtx G)
    (u : UnsignedTransaction G B T) (c : TxBoxes G B T) (keys : List (SigmaBoolean G)) (prop : Nat → SigmaBoolean G)
    (h : ∀ i inp, u.inputs[i]? = some inp → inputProp reduce S (u.spend E) c i inp.boxId = .ok (prop i, inp.extension)) :
    ∃ b, commitTx reduce C r E S u c keys = .ok b ∧
      ∀ i, i < u.inputs.length → b.allFor i = generateCommitmentsFor C (r i) (prop i) keys := by
  have hred : ∀ (ins : List (UnsignedInput G B)) (k : Nat), (∀ j inp, ins[j]? = some inp →
      inputProp reduce S (u.spend E) c (k + j) inp.boxId = .ok (prop (k + j), inp.extension)) →
      ∃ rs, reduceInputs reduce S (u.spend E) c k ins = .ok rs ∧ rs.length = ins.length ∧
        ∀ j, j < ins.length → (rs.map ReducedInput.prop)[j]? = some (prop (k + j)) := by
    intro ins
    induction ins with
    | nil => intro k _; exact ⟨[], rfl, rfl, fun j hj => absurd hj (Nat.not_lt_zero _)⟩
    | cons a ins ih =>
      intro k hk
      obtain ⟨rs, h1, h2, h3⟩ := ih (k + 1) (fun j inp hj => by
        have := hk (j + 1) inp (by simpa using hj)
        rwa [show k + (j + 1) = k + 1 + j by omega] at this)
      have h0 := hk 0 a rfl
      rw [Nat.add_zero] at h0
      refine ⟨_, by rw [reduceInputs, h0, Outcome.bind_ok, h1, Outcome.bind_ok]; rfl, by simp [h2], fun j hj => ?_⟩
      cases j with
      | zero => rfl
      | succ j =>
        have := h3 j (by simpa using hj)
        rw [show k + (j + 1) = k + 1 + j by omega]
        simpa using this
  obtain ⟨rs, h1, h2, h3⟩ := hred u.inputs 0 (fun j inp hj => by rw [Nat.zero_add]; exact h j inp hj)
  have hr : reduceTx reduce E S u c = .ok { tx := u, cost := 0, inputs := rs } := by
    unfold reduceTx
    rw [h1]; rfl
  refine ⟨_, (C65_commitments reduce C r E S u c keys _).2 ⟨_, hr, rfl⟩, fun i hi => ?_⟩
  unfold commitReduced
  rw [C44_generate]
  simp only
  rw [h3 i hi, Nat.zero_add]

end
end
end Verif
