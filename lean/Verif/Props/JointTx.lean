import Verif.Proofs.JointTx

set_option linter.unusedSimpArgs false
set_option linter.unusedVariables false

/-!
# C78: several wallets sign a transaction together
-/

namespace Verif
open Verif.Sigma Verif.Spec Verif.Json

section
variable {G B T : Type} {q : Nat} [DecidableEq G] [AddCommGroup G] [Module (ZMod q) G]

theorem announce_all (reduce : Reduce G B T) (C : Curve G) (E : Sers G B T) (S : StateCtx G) (u : UnsignedTransaction G B T)
    (c : TxBoxes G B T) (send : TxHints G q → Outcome (TxHints G q)) (hsend : Sends send) (prop : Nat → SigmaBoolean G)
    (hprop : ∀ i inp, u.inputs[i]? = some inp → inputProp reduce S (u.spend E) c i inp.boxId = .ok (prop i, inp.extension))
    (hb : ∀ i, i < u.inputs.length → (prop i).Bounded) (hn : u.inputs.length ≤ 2 ^ 64) : ∀ ss : List (TxSigner G q),
    ∃ ann, announceTx reduce C E S u c send ss = .ok ann ∧ ∀ i, i < u.inputs.length →
      ((ann.flatMap fun b => b.allFor i).map forgetHint).Perm ((announced C (prop i) (ss.map (·.at i))).map forgetHint)
  | [] => ⟨[], rfl, fun i _ => List.Perm.refl _⟩
  | s :: ss => by
    obtain ⟨ann, h1, h2⟩ := announce_all reduce C E S u c send hsend prop hprop hb hn ss
    obtain ⟨own, h3, h4⟩ := commit_all reduce C s.nonce E S u c (s.keys C) prop hprop
    obtain ⟨pub, h5, h6⟩ := hsend _ (publicBag_good u.inputs.length hn own (fun i hi h hh => by
      rw [h4 i hi] at hh
      exact commitments_good C _ _ (hb i hi) _ h hh))
    refine ⟨pub :: ann, by rw [announceTx, h3, Outcome.bind_ok, h5, Outcome.bind_ok, h1]; rfl, fun i hi => ?_⟩
    rw [List.flatMap_cons, List.map_append]
    have hp := (h6 i).trans ((publicBag_perm u.inputs.length own i hi).map forgetHint)
    rw [h4 i hi] at hp
    refine (List.Perm.append hp (h2 i hi)).trans ?_
    rw [← List.map_append]
    exact List.Perm.refl _

/-- The state of a session after the keys `done` have signed, for one input: nothing is needed, or the bags received hold the right hints. -/
def Ready (C : Curve G) (ss : List (TxSigner G q)) (i : Nat) (sb : SigmaBoolean G) (e : Challenge) (done : List (SigmaBoolean G))
    (ex : List (TxHints G q)) : Prop :=
  sb = .trivial true ∨ ∃ l, Extracted C sb (ss.map (·.at i)) e done l ∧
    ((ex.flatMap fun b => b.allFor i).map forgetHint).Perm (l.map forgetHint)

theorem session_all [NeZero q] (hq : q ≤ 2 ^ 256) (reduce : Reduce G B T) (C : Curve G) (hone : C.codec.one = 0) (E : Sers G B T)
    (S : StateCtx G) (is : List (UnsignedInput G B)) (d : Option (List Bytes)) (cands : List (BoxCand G B T)) (u : UnsignedTransaction G B T)
    (hu : UnsignedTransaction.new E is d cands = .ok u) (m : Bytes) (hm : u.bytesToSign E = .ok m)
    (c : TxBoxes G B T) (send : TxHints G q → Outcome (TxHints G q)) (hsend : Sends send)
    (join : List (TxHints G q) → TxHints G q) (hjoin : Joins u.inputs.length join) (prop : Nat → SigmaBoolean G)
    (hprop : ∀ i inp, u.inputs[i]? = some inp → inputProp reduce S (u.spend E) c i inp.boxId = .ok (prop i, inp.extension))
    (hb : ∀ i, i < u.inputs.length → (prop i).Bounded) (hn : u.inputs.length ≤ 2 ^ 64) (ss : List (TxSigner G q))
    (hj : ∀ i, i < u.inputs.length → Joint C ss (prop i)) (hok : ∀ s ∈ ss, SecretsOk s.secrets)
    (ann : List (TxHints G q)) (hann : ∀ i, i < u.inputs.length →
      ((ann.flatMap fun b => b.allFor i).map forgetHint).Perm ((announced C (prop i) (ss.map (·.at i))).map forgetHint))
    (bs : Nat → Bytes) (hbs : ∀ i, i < u.inputs.length → prop i = .trivial true ∨
      fsUnchecked C.codec (UT (fun p pos => some (cmOf C (ss.map (·.at i)) p pos)) (fsHash C.hash (bs i ++ m)) (fun _ => (0 : ZMod q)) (prop i)
        cryptoTreePrefix) = .ok (bs i)) :
    ∀ (rest : List (TxSigner G q)) (done : List (SigmaBoolean G)) (ex : List (TxHints G q)), rest ≠ [] → (∀ s ∈ rest, s ∈ ss) →
      (∀ i, i < u.inputs.length → Ready C ss i (prop i) (fsHash C.hash (bs i ++ m)) done ex) →
      (∀ i, i < u.inputs.length → ∀ x ∈ leaves (prop i), x.1.toSB ∈ done ∨ ∃ s ∈ rest, x.1.toSB ∈ s.keys C) →
      ∃ t, signTxInTurn reduce C E S u c send join ann done ex rest = .ok t ∧ essence t = unsignedEssence u ∧
        ∀ i, i < u.inputs.length → verifyInput q C reduce E S t c i = .ok true := by
  -- one turn
  have one : ∀ (s : TxSigner G q) (done : List (SigmaBoolean G)) (ex : List (TxHints G q)), s ∈ ss →
      (∀ i, i < u.inputs.length → Ready C ss i (prop i) (fsHash C.hash (bs i ++ m)) done ex) →
      ∃ own t, commitTx reduce C s.nonce E S u c (s.keys C) = .ok own ∧
        signTransaction reduce (s.wallet C) E S u c (some (join (own :: (ann ++ ex)))) = .ok t ∧ essence t = unsignedEssence u ∧
        (∃ b, extractTx reduce C S t c (done ++ s.keys C) [] = .ok b ∧ GoodBag b ∧ ∀ i, i < u.inputs.length → prop i = .trivial true ∨
          ∃ l, Extracted C (prop i) (ss.map (·.at i)) (fsHash C.hash (bs i ++ m)) (done ++ s.keys C) l ∧ (b.allFor i).Perm l) ∧
        ((∀ i, i < u.inputs.length → ∀ x ∈ leaves (prop i), x.1.toSB ∈ done ∨ x.1.toSB ∈ s.keys C) →
          ∀ i, i < u.inputs.length → verifyInput q C reduce E S t c i = .ok true) := by
    intro s done ex hs hready
    obtain ⟨own, hown, hown2⟩ := commit_all reduce C s.nonce E S u c (s.keys C) prop hprop
    -- the proof of each input
    have hproof : ∀ i, i < u.inputs.length → ∃ pr, (s.wallet C).proof (some (join (own :: (ann ++ ex)))) i (prop i) m = .ok pr ∧
        ((prop i = .trivial true ∧ pr = .empty) ∨ (∃ sig, nontrivial (prop i) ∧ pr = .some sig ∧
          (∃ l, bagForMultiSig C (prop i) (done ++ s.keys C) [] sig = .ok l ∧
            Extracted C (prop i) (ss.map (·.at i)) (fsHash C.hash (bs i ++ m)) (done ++ s.keys C) l) ∧
          ((∀ x ∈ leaves (prop i), x.1.toSB ∈ done ∨ x.1.toSB ∈ s.keys C) → verifySignature q C (prop i) m sig = .ok true))) := by
      intro i hi
      rcases hj i hi with ht | ⟨hbi, hai, hdis, hcov⟩
      · refine ⟨.empty, ?_, .inl ⟨ht, rfl⟩⟩
        rw [ht]
        rfl
      have hnt : prop i ≠ .trivial true := by
        intro h; rw [h] at hai; exact hai
      obtain ⟨l, hl1, hl2⟩ := (hready i hi).resolve_left hnt
      have hp : (((join (own :: (ann ++ ex))).allFor i).map forgetHint).Perm
          (((s.at i).commitments C (prop i) ++ announced C (prop i) (ss.map (·.at i)) ++ l).map forgetHint) := by
        refine ((hjoin (own :: (ann ++ ex)) i hi).map forgetHint).trans ?_
        rw [List.flatMap_cons, List.flatMap_append, List.map_append, List.map_append, List.map_append, List.map_append, hown2 i hi,
          List.append_assoc]
        exact List.Perm.append_left _ (List.Perm.append (hann i hi) hl2)
      obtain ⟨sig, h1, h2, h3⟩ := turnSent hq C hone (prop i) (ss.map (·.at i)) hbi hai
        (by
          intro a ha b hb x hx h1 h2
          obtain ⟨a', ha1, rfl⟩ := List.mem_map.1 ha
          obtain ⟨b', hb1, rfl⟩ := List.mem_map.1 hb
          rw [hdis a' ha1 b' hb1 x hx h1 h2])
        (by
          intro x hx
          obtain ⟨a, ha, h⟩ := hcov x hx
          exact ⟨a.at i, List.mem_map_of_mem ha, h⟩)
        (by
          intro a ha
          obtain ⟨a', ha1, rfl⟩ := List.mem_map.1 ha
          exact hok a' ha1)
        m (bs i) _ ((hbs i hi).resolve_left hnt) rfl done l hl1 (s.at i) (List.mem_map_of_mem hs)
        ((join (own :: (ann ++ ex))).allFor i) hp
      have hnt' : nontrivial (prop i) := by
        cases hpi : prop i <;> first | trivial | (rw [hpi] at hai; exact hai)
      refine ⟨.some sig, ?_, .inr ⟨sig, hnt', rfl, h2, h3⟩⟩
      unfold WalletP.proof
      have h1' : generateProof { curve := (s.wallet C).curve, secrets := (s.wallet C).secrets, hints := hintsFor (some (join (own :: (ann ++ ex)))) i, rnd := (s.wallet C).rnd i } (prop i) m = .ok sig := h1
      rw [h1', Outcome.bind_ok]
      cases hpi : prop i <;> first | rfl | (rw [hpi] at hnt'; exact hnt'.elim)
    obtain ⟨t, ht1, ht2, ht3, ht4, ht5, ht6⟩ := sign_all reduce (s.wallet C) E S is d cands u hu c (some (join (own :: (ann ++ ex)))) m hm
      (fun i inp hi => by
        obtain ⟨pr, hpr, _⟩ := hproof i (List.getElem?_eq_some_iff.1 hi).1
        exact ⟨prop i, pr, hprop i inp hi, hpr⟩)
    have hinp : ∀ i x, t.inputs[i]? = some x → i < u.inputs.length ∧ ∃ pr ext, inputProp reduce S t.spend c i x.boxId = .ok (prop i, ext) ∧
        (s.wallet C).proof (some (join (own :: (ann ++ ex)))) i (prop i) m = .ok pr ∧ x.proof.proof = pr := by
      intro i x hx
      have hi : i < u.inputs.length := by rw [← ht2]; exact (List.getElem?_eq_some_iff.1 hx).1
      obtain ⟨sb, pr, k1, k2, k3⟩ := ht6 i _ (List.getElem?_eq_getElem hi)
      have k4 := hprop i _ (List.getElem?_eq_getElem hi)
      rw [k1, Outcome.ok.injEq, Prod.mk.injEq] at k4
      rw [hx, Option.some.injEq] at k3
      obtain ⟨rfl, _⟩ := k4
      subst k3
      refine ⟨hi, pr, u.inputs[i].extension, ?_, k2, rfl⟩
      rw [ht3]; exact k1
    refine ⟨own, t, hown, ht1, ht5, ?_, ?_⟩
    · obtain ⟨b, hb1, hb2⟩ := extract_all reduce C S t.spend c (done ++ s.keys C) [] t.inputs 0 (.empty : TxHints G q) (by omega) empty_good
        (by
          intro i x hx
          obtain ⟨hi, pr, ext, k1, k2, k3⟩ := hinp i x hx
          rw [Nat.zero_add]
          obtain ⟨pr', p1, p2⟩ := hproof i hi
          rw [k2, Outcome.ok.injEq] at p1
          subst p1
          rcases p2 with ⟨p3, p4⟩ | ⟨sig, p3, p4, ⟨l, p5, p6⟩, _⟩
          · refine ⟨prop i, ext, [], k1, hb i hi, ?_⟩
            rw [p3]; rfl
          · refine ⟨prop i, ext, l, k1, hb i hi, ?_⟩
            rw [k3, p4]; exact p5)
      refine ⟨b, hb1, hb2, fun i hi => ?_⟩
      obtain ⟨c1, _⟩ := C65_extract reduce C S t c (done ++ s.keys C) [] b hb1
      have hx : t.inputs[i]? = some t.inputs[i] := List.getElem?_eq_getElem (by omega)
      obtain ⟨sb, ext, hs', c2, c3, c4⟩ := c1 i _ hx
      obtain ⟨_, pr, ext', k1, k2, k3⟩ := hinp i _ hx
      rw [k1, Outcome.ok.injEq, Prod.mk.injEq] at c2
      obtain ⟨rfl, _⟩ := c2
      obtain ⟨pr', p1, p2⟩ := hproof i hi
      rw [k2, Outcome.ok.injEq] at p1
      subst p1
      rcases p2 with ⟨p3, p4⟩ | ⟨sig, p3, p4, ⟨l, p5, p6⟩, _⟩
      · exact .inl p3
      · right
        refine ⟨l, p6, ?_⟩
        rw [k3, p4] at c3
        have c3' : bagForMultiSig C (prop i) (done ++ s.keys C) [] sig = .ok hs' := c3
        rw [p5, Outcome.ok.injEq] at c3'
        subst c3'
        rw [c4]
        have hc : (Hint.isCommitment : Hint G q → Bool) = fun x => !Hint.isProven x := by funext x; cases x <;> rfl
        rw [hc]
        exact List.filter_append_perm _ _
    · intro hall i hi
      have hx : t.inputs[i]? = some t.inputs[i] := List.getElem?_eq_getElem (by omega)
      obtain ⟨_, pr, ext', k1, k2, k3⟩ := hinp i _ hx
      obtain ⟨pr', p1, p2⟩ := hproof i hi
      rw [k2, Outcome.ok.injEq] at p1
      subst p1
      rw [C64_verify reduce C E S t c i _ hx]
      refine ⟨m, prop i, ext', ht4, k1, ?_⟩
      rcases p2 with ⟨p3, p4⟩ | ⟨sig, p3, p4, _, p7⟩
      · exact .inl p3
      · exact .inr ⟨p3, sig, by rw [k3, p4], p7 (hall i hi)⟩
  intro rest
  induction rest with
  | nil => intro _ _ h; exact (h rfl).elim
  | cons s rest ih =>
    intro done ex _ hsub hready hcov
    obtain ⟨own, t, h1, h2, h3, ⟨b, h4, h5, h6⟩, h7⟩ := one s done ex (hsub s List.mem_cons_self) hready
    cases rest with
    | nil =>
      refine ⟨t, by rw [signTxInTurn, h1, Outcome.bind_ok, h2], h3, h7 fun i hi x hx => ?_⟩
      rcases hcov i hi x hx with h | ⟨s', hs', h⟩
      · exact .inl h
      · rw [List.mem_singleton.1 hs'] at h; exact .inr h
    | cons s' rest =>
      obtain ⟨b', g1, g2⟩ := hsend b h5
      obtain ⟨t', g3, g4, g5⟩ := ih (done ++ s.keys C) [b'] (by simp) (fun x hx => hsub x (List.mem_cons_of_mem _ hx))
        (by
          intro i hi
          rcases h6 i hi with h | ⟨l, e1, e2⟩
          · exact .inl h
          · refine .inr ⟨l, e1, ?_⟩
            rw [List.flatMap_cons, List.flatMap_nil, List.append_nil]
            exact (g2 i).trans (e2.map forgetHint))
        (by
          intro i hi x hx
          rcases hcov i hi x hx with h | ⟨y, hy, h⟩
          · exact .inl (List.mem_append_left _ h)
          · rcases List.mem_cons.1 hy with rfl | hy
            · exact .inl (List.mem_append_right _ h)
            · exact .inr ⟨y, hy, h⟩)
      refine ⟨t', ?_, g4, g5⟩
      rw [signTxInTurn, h1, Outcome.bind_ok, h2, Outcome.bind_ok, h4, Outcome.bind_ok, g1, Outcome.bind_ok, g3]

/-- C78: several wallets sign a transaction together.  Everybody makes commitments for their own keys for all inputs and sends the public
part to all; one after the other signs the transaction, with their own commitments, those received and the hints extracted from the transaction
of the one before.  If the script of each input reduces, in the context the transaction describes, to "true" or to an AND proposition
whose leaves belong to the signers (each to one), then all turns succeed, and in the last transaction, which is the unsigned one
with proofs, every input is accepted by the verifier.  This holds for every way to send bags that loses at most the commitments inside of proofs and
every way to put bags together that loses no hint. -/
theorem C78_session [NeZero q] (hq : q ≤ 2 ^ 256) (reduce : Reduce G B T) (C : Curve G) (hone : C.codec.one = 0) (E : Sers G B T)
    (S : StateCtx G) (is : List (UnsignedInput G B)) (hlen : is.length ≤ 2 ^ 64) (d : Option (List Bytes)) (cands : List (BoxCand G B T))
    (u : UnsignedTransaction G B T) (hu : UnsignedTransaction.new E is d cands = .ok u) (boxes dataBoxes : List (EBox G B T))
    (c : TxBoxes G B T) (hc : TxBoxes.new (u.spend E) boxes dataBoxes = .ok c) (ss : List (TxSigner G q)) (hne : ss ≠ [])
    (hok : ∀ s ∈ ss, SecretsOk s.secrets)
    (hr : ∀ i ctx outs, outputsFrom E u.txId 0 cands = .ok outs → ContextOf S (unsignedEssence u) outs boxes dataBoxes i ctx →
      ∃ sb, reduce ctx.selfBox.tree ctx = .ok sb ∧ Joint C ss sb)
    (send : TxHints G q → Outcome (TxHints G q)) (hsend : Sends send) (join : List (TxHints G q) → TxHints G q)
    (hjoin : Joins is.length join) :
    ∃ t, signTogether reduce C E S u c send join ss = .ok t ∧ essence t = unsignedEssence u ∧
      ∀ i, i < is.length → verifyInput q C reduce E S t c i = .ok true := by
  obtain ⟨h1, h2, h3, m, h4, h5⟩ := unsigned_new_spec E hu
  have key : ∀ i, ∃ sb, ∀ inp, u.inputs[i]? = some inp → inputProp reduce S (u.spend E) c i inp.boxId = .ok (sb, inp.extension) ∧
      Joint C ss sb := by
    intro i
    cases hi : u.inputs[i]? with
    | none => exact ⟨.trivial true, fun inp h => by cases h⟩
    | some inp =>
      have hlt : i < is.length := by rw [← h1]; exact (List.getElem?_eq_some_iff.1 hi).1
      obtain ⟨hex, outs, ho, hctxof⟩ := C64_context E S is d cands u hu boxes dataBoxes c hc i
      obtain ⟨ctx, hctx⟩ := hex.1 hlt
      have hof := hctxof ctx hctx
      obtain ⟨sb, hsb, hpv⟩ := hr i ctx outs ho hof
      refine ⟨sb, fun inp' hi' => ?_⟩
      cases hi'
      refine ⟨?_, hpv⟩
      have hself := hof.self
      have hgi : c.get inp.boxId = some ctx.selfBox := by
        have hm := hctx
        unfold makeContext at hm
        simp only [Outcome.bind_eq_ok, ofOpt_eq_ok] at hm
        obtain ⟨id, hid, b, hb, _, _, _, _, _, _, _, _, hz⟩ := hm
        simp only [Outcome.pure_eq, Outcome.ok.injEq] at hz
        subst hz
        change (u.inputs.map UnsignedInput.boxId)[i]? = some id at hid
        rw [List.getElem?_map, hi, Option.map_some, Option.some.injEq] at hid
        rw [hid]; exact hb
      have hext : ctx.extension = inp.extension := by
        change ((u.inputs.map fun x => (x.boxId, x.extension))[i]?) = _ at hself
        rw [List.getElem?_map, hi, Option.map_some, Option.some.injEq, Prod.mk.injEq] at hself
        exact hself.2.symm
      unfold inputProp
      simp only [hgi, ofOpt, Outcome.bind_ok, hctx, hsb, Outcome.pure_eq, hext]
  choose prop hprop using key
  have hj : ∀ i, i < u.inputs.length → Joint C ss (prop i) := fun i hi => (hprop i _ (List.getElem?_eq_getElem hi)).2
  have hb : ∀ i, i < u.inputs.length → (prop i).Bounded := by
    intro i hi
    rcases hj i hi with h | ⟨h, _⟩
    · rw [h]; trivial
    · exact h
  obtain ⟨ann, ha1, ha2⟩ := announce_all reduce C E S u c send hsend prop (fun i inp hi => (hprop i inp hi).1) hb (by rw [h1]; exact hlen) ss
  have hbs : ∀ i, ∃ bs, i < u.inputs.length → prop i = .trivial true ∨
      fsUnchecked C.codec (UT (fun p pos => some (cmOf C (ss.map (·.at i)) p pos)) (fsHash C.hash (bs ++ m)) (fun _ => (0 : ZMod q)) (prop i)
        cryptoTreePrefix) = .ok bs := by
    intro i
    by_cases hi : i < u.inputs.length
    · rcases hj i hi with h | ⟨_, hai, _, _⟩
      · exact ⟨[], fun _ => .inl h⟩
      · obtain ⟨bs, hbs⟩ := fs_total (cmOf C (ss.map (·.at i))) C.codec (fsHash C.hash []) (fun _ => (0 : ZMod q)) (prop i) cryptoTreePrefix hai
        exact ⟨bs, fun _ => .inr ((fs_indep _ _ _ _ _ _ _ _ hai).trans hbs)⟩
    · exact ⟨[], fun h => (hi h).elim⟩
  choose bs hbs using hbs
  obtain ⟨t, t1, t2, t3⟩ := session_all hq reduce C hone E S is d cands u hu m h4 c send hsend join (by rw [h1]; exact hjoin) prop
    (fun i inp hi => (hprop i inp hi).1) hb (by rw [h1]; exact hlen) ss hj hok ann ha2 bs hbs ss [] [] hne (fun _ h => h)
    (by
      intro i hi
      refine .inr ⟨[], ⟨?_, ?_⟩, List.Perm.refl _⟩
      · intro h hm; cases hm
      · intro x _ hd; cases hd)
    (by
      intro i hi x hx
      rcases hj i hi with h | ⟨_, _, _, hcov⟩
      · rw [h] at hx; cases hx
      · exact .inr (hcov x hx))
  refine ⟨t, ?_, t2, by rw [← h1]; exact t3⟩
  rw [signTogether, ha1, Outcome.bind_ok, t1]

omit [DecidableEq G] [AddCommGroup G] [Module (ZMod q) G] in
/-- C78: bags may be shared as they are … -/
theorem C78_send_memory : Sends (fun b : TxHints G q => .ok b) := fun b _ => ⟨b, rfl, fun i => List.Perm.refl _⟩

/-- … or as JSON, whatever the order of the hash maps … -/
theorem C78_send_json [NeZero q] (hq : q ≤ 2 ^ 256) (pc : PointCodec G) (ord : List (Text × Json) → List (Text × Json)) (ho : IsOrder ord) :
    Sends (sendJson (q := q) pc ord) := by
  intro b hb
  obtain ⟨j, b', h1, h2, h3⟩ := C77_bag_roundtrip hq pc ord ho b hb
  refine ⟨b', by rw [sendJson, h1, Outcome.bind_ok, h2], fun i => ?_⟩
  rw [h3 i, List.map_map]
  have : (forgetHint ∘ forgetHint : Hint G q → Hint G q) = forgetHint := funext forget_forget
  rw [this]

omit [DecidableEq G] [AddCommGroup G] [Module (ZMod q) G] in
/-- … and put together with `add_hints_for_input`. -/
theorem C78_join (n : Nat) : Joins n (joinBags n : List (TxHints G q) → TxHints G q) := joinBags_joins n

end

/-! ## Cases -/

/-- The signers of C63, with other random scalars for every input. -/
def jtSigners : List (TxSigner (ZMod 3) 3) :=
  [⟨[.dlog 1], fun i p => (i + p.length : Nat), fun _ => toyRnd⟩,
   ⟨[.dht 2 1 2 2 1, .dlog 0], fun i p => (p.foldl (· + ·) (i + 1) : Nat), fun _ => toyRnd⟩,
   ⟨[.dlog 2], fun i _ => (2 + i : Nat), fun _ => toyRnd⟩]

/-- Tree 7 asks all of them, tree 6 two of them, tree 8 checks the height. -/
def jtReduce : Reduce (ZMod 3) Empty Byte := fun tree ctx =>
  if tree = 7 then .ok toyJoint
  else if tree = 6 then .ok (.cand [.dlog 1, .dlog 2])
  else if tree = 8 then .ok (.trivial (decide (ctx.height = 3)))
  else .err

/-- Sign together, then verify both inputs. -/
def jtRun (tree : Byte) (ss : List (TxSigner (ZMod 3) 3)) : Outcome (List Bool) := do
  let u ← sgTx 5
  let c ← TxBoxes.new (u.spend sgSers) (sgBoxes tree) [sgBox 3 8]
  let t ← signTogether jtReduce toyCurve sgSers sgState u c (fun b => .ok b) (joinBags 2) ss
  let a ← verifyInput 3 toyCurve jtReduce sgSers sgState t c 0
  let b ← verifyInput 3 toyCurve jtReduce sgSers sgState t c 1
  pure [a, b]

/-- A run: three signers, two inputs with different AND propositions; and one with an input that needs no proof. -/
example : jtRun 6 jtSigners = .ok [true, true] ∧ jtRun 8 jtSigners = .ok [true, true] := by decide +kernel

theorem jt_joint (sb : SigmaBoolean (ZMod 3)) (h : sb = toyJoint ∨ sb = .cand [.dlog 1, .dlog 2]) : Joint toyCurve jtSigners sb := by
  have i1 : (⟨[.dlog 1], fun i p => (i + p.length : Nat), fun _ => toyRnd⟩ : TxSigner (ZMod 3) 3).keys toyCurve = [.dlog 1] := by
    with_unfolding_all rfl
  have i2 : (⟨[.dht 2 1 2 2 1, .dlog 0], fun i p => (p.foldl (· + ·) (i + 1) : Nat), fun _ => toyRnd⟩ : TxSigner (ZMod 3) 3).keys toyCurve =
    [.dht 1 2 2 1, .dlog 0] := by with_unfolding_all rfl
  have i3 : (⟨[.dlog 2], fun i _ => (2 + i : Nat), fun _ => toyRnd⟩ : TxSigner (ZMod 3) 3).keys toyCurve = [.dlog 2] := by
    with_unfolding_all rfl
  have hone : ∀ s ∈ jtSigners, ∀ t ∈ jtSigners, ∀ k : SigmaBoolean (ZMod 3), k ∈ s.keys toyCurve → k ∈ t.keys toyCurve → s = t := by
    intro s hs t ht k h1 h2
    simp only [jtSigners, List.mem_cons, List.not_mem_nil, or_false] at hs ht
    rcases hs with rfl | rfl | rfl <;> rcases ht with rfl | rfl | rfl <;> try rfl
    all_goals
      simp only [i1, i2, i3, List.mem_cons, List.not_mem_nil] at h1 h2
      rcases h1 with h1 | h1 | h1
      all_goals
        rcases h2 with h2 | h2 | h2
        all_goals
          exfalso
          try rw [h1] at h2
          first
            | exact h1
            | exact h2
            | (injection h2; done)
            | (injection h2 with h; revert h; decide)
  have hcov : ∀ k : SigmaBoolean (ZMod 3), k ∈ [.dlog 1, .dht 1 2 2 1, .dlog 0, .dlog 2] → ∃ s ∈ jtSigners, k ∈ s.keys toyCurve := by
    intro k hk
    simp only [List.mem_cons, List.not_mem_nil, or_false] at hk
    rcases hk with rfl | rfl | rfl | rfl
    · exact ⟨_, List.mem_cons_self, by rw [i1]; simp⟩
    · exact ⟨_, List.mem_cons_of_mem _ List.mem_cons_self, by rw [i2]; simp⟩
    · exact ⟨_, List.mem_cons_of_mem _ List.mem_cons_self, by rw [i2]; simp⟩
    · exact ⟨_, List.mem_cons_of_mem _ (List.mem_cons_of_mem _ List.mem_cons_self), by rw [i3]; simp⟩
  right
  refine ⟨?_, ?_, fun s hs t ht x _ h1 h2 => hone s hs t ht _ h1 h2, fun x hx => hcov _ ?_⟩
  · rcases h with rfl | rfl <;> simp [toyJoint, SigmaBoolean.Bounded, SigmaBoolean.BoundedList]
  · rcases h with rfl | rfl <;> simp [toyJoint, AndOnly, AndOnlyList]
  · rcases h with rfl | rfl
    · simp only [leaves, toyJoint, leavesAt, leavesAtList, cryptoTreePrefix, List.mem_append, List.mem_singleton, List.append_nil] at hx
      rcases hx with rfl | (rfl | rfl) | rfl <;> simp [LeafProp.toSB]
    · simp only [leaves, leavesAt, leavesAtList, cryptoTreePrefix, List.mem_append, List.mem_singleton, List.append_nil] at hx
      rcases hx with rfl | rfl <;> simp [LeafProp.toSB]

/-- The hypotheses of `C78_session` hold for three signers, two inputs, a context variable and a data input. -/
example : (∀ s ∈ jtSigners, SecretsOk s.secrets) ∧ toyCurve.codec.one = 0 ∧ ∃ u c, sgTx 5 = .ok u ∧
    TxBoxes.new (u.spend sgSers) (sgBoxes 6) [sgBox 3 8] = .ok c ∧
    ∀ i ctx outs, outputsFrom sgSers u.txId 0 sgCands = .ok outs →
      ContextOf sgState (unsignedEssence u) outs (sgBoxes 6) [sgBox 3 8] i ctx →
      ∃ sb, jtReduce ctx.selfBox.tree ctx = .ok sb ∧ Joint toyCurve jtSigners sb := by
  refine ⟨?_, rfl, ?_⟩
  · intro s hs
    simp only [jtSigners, List.mem_cons, List.not_mem_nil, or_false] at hs
    rcases hs with rfl | rfl | rfl
    · intro t ht; simp only [List.mem_singleton] at ht; subst ht; trivial
    · intro t ht
      simp only [List.mem_cons, List.not_mem_nil, or_false] at ht
      rcases ht with rfl | rfl
      · show (2 : ZMod 3) = 2 • (1 : ZMod 3) ∧ (1 : ZMod 3) = (2 : ZMod 3) • (2 : ZMod 3)
        decide
      · trivial
    · intro t ht; simp only [List.mem_singleton] at ht; subst ht; trivial
  obtain ⟨u, hu⟩ := sg_tx_ok
  obtain ⟨c, hc⟩ := sg_boxes_ok 6 u hu
  refine ⟨u, c, hu, hc, fun i ctx outs _ hof => ?_⟩
  have hm := hof.given _ (List.mem_of_getElem? hof.selfAt)
  have hh : ctx.height = 3 := hof.height
  simp only [sgBoxes, List.mem_cons, List.not_mem_nil, or_false] at hm
  rcases hm with he | he | he
  · refine ⟨.trivial true, ?_, .inl rfl⟩
    rw [he]
    show Outcome.ok (SigmaBoolean.trivial (decide (ctx.height = 3))) = _
    rw [hh]; rfl
  · exact ⟨_, by rw [he]; rfl, jt_joint _ (.inr rfl)⟩
  · exact ⟨_, by rw [he]; rfl, jt_joint _ (.inl rfl)⟩

end Verif
