import Verif.Proofs.Reduced
import Verif.Props.Transaction
import Verif.Props.MultiSig

set_option linter.unusedSimpArgs false
set_option linter.unusedVariables false

/-!
# C64 – signing a transaction; C65 – reduced transactions
-/

namespace Verif
open Verif.Sigma Verif.Spec

section
variable {G B T : Type} [DecidableEq G]

/-- C64: for a transaction made by the constructor, with boxes accepted by the constructor of the context, the script of
every input gets a context, and it is the one the transaction describes: SELF is the box spent by this input, INPUTS, data
inputs and OUTPUTS are those of the transaction in order, the variables are those of this input. -/
theorem C64_context (E : Sers G B T) (S : StateCtx G) (is : List (UnsignedInput G B)) (d : Option (List Bytes))
    (cands : List (BoxCand G B T)) (u : UnsignedTransaction G B T) (hu : UnsignedTransaction.new E is d cands = .ok u)
    (boxes dataBoxes : List (EBox G B T)) (c : TxBoxes G B T) (hc : TxBoxes.new (u.spend E) boxes dataBoxes = .ok c)
    (i : Nat) : (i < is.length ↔ ∃ ctx, makeContext S (u.spend E) c i = .ok ctx) ∧
      ∃ outs, outputsFrom E u.txId 0 cands = .ok outs ∧
        ∀ ctx, makeContext S (u.spend E) c i = .ok ctx → ContextOf S (unsignedEssence u) outs boxes dataBoxes i ctx := by
  obtain ⟨h1, h2, h3, m, h4, h5⟩ := unsigned_new_spec E hu
  obtain ⟨_, _, ⟨o, h6⟩⟩ := unsigned_bytes_spec E h4
  rw [← h5] at h6
  obtain ⟨c1, c2, c3, c4⟩ := TxBoxes.new_spec hc
  have ho : (u.spend E).outputs = .ok o := by
    show (match outputsFrom E u.txId 0 u.cands with | .ok l => Outcome.ok l | _ => .panic) = _
    rw [h6]
  refine ⟨⟨fun hi => ?_, fun ⟨ctx, hctx⟩ => ?_⟩, o, by rw [← h3]; exact h6, fun ctx hctx => ?_⟩
  · rw [← h1] at hi
    refine makeContext_ok S ho (ext := u.inputs[i].extension) ?_ (by simpa [UnsignedTransaction.spend] using hi) c3 c4
    show u.inputs[i]?.map _ = _
    rw [List.getElem?_eq_getElem hi]; rfl
  · unfold makeContext at hctx
    simp only [Outcome.bind_eq_ok, ofOpt_eq_ok] at hctx
    obtain ⟨id, hid, _⟩ := hctx
    have := (List.getElem?_eq_some_iff.1 hid).1
    rw [← h1]
    simpa [UnsignedTransaction.spend] using this
  · have := (makeContext_spec S (u.spend E) c i ctx (unsignedEssence u) o (by simp [UnsignedTransaction.spend, unsignedEssence])
      rfl ho (by intro j; simp [UnsignedTransaction.spend, unsignedEssence, Function.comp_def]) hctx).1
    rw [c1, c2] at this
    exact this

/-- C64: boxes are refused when the box of some input, or of some data input, is not among them. -/
theorem C64_missing_box (tx : SpendTx G B T) (boxes dataBoxes : List (EBox G B T))
    (h : (∃ id ∈ tx.inputIds, ∀ b ∈ boxes, b.boxId ≠ id) ∨
      ∃ l, tx.dataInputs = some l ∧ ∃ id ∈ l, ∀ b ∈ dataBoxes, b.boxId ≠ id) : TxBoxes.new tx boxes dataBoxes = .err := by
  cases hx : TxBoxes.new tx boxes dataBoxes with
  | err => rfl
  | panic =>
    exfalso
    revert hx
    unfold TxBoxes.new
    cases ioVec boxes with
    | none => simp [ofOpt]
    | some bs =>
      simp only [ofOpt, Outcome.bind_ok]
      split
      · simp
      · cases optIoVec dataBoxes with
        | none => simp
        | some ds =>
          simp only [Outcome.bind_ok, Outcome.pure_eq]
          split
          · simp
          · split <;> simp
          · simp
  | ok c =>
    exfalso
    obtain ⟨c1, c2, c3, c4⟩ := TxBoxes.new_spec hx
    rcases h with ⟨id, h1, h2⟩ | ⟨l, h0, id, h1, h2⟩
    · obtain ⟨b, hb⟩ := c3 id h1
      obtain ⟨g1, g2⟩ := TxBoxes.get_spec hb
      exact h2 b (by rw [← c1]; exact g1) g2
    · obtain ⟨b, hb⟩ := c4 l h0 id h1
      obtain ⟨⟨l', g0, g1⟩, g2⟩ := TxBoxes.getData_spec hb
      exact h2 b (by rw [← c2, g0]; exact g1) g2

section
variable {q : Nat} [AddCommGroup G] [Module (ZMod q) G]

/-- C64: whatever the secrets, hints and randomness, a signed transaction is the unsigned one with proofs: same boxes
spent, same context variables, same data inputs, same outputs, same id and same bytes to sign; and each script sees the same
context as in the unsigned transaction. -/
theorem C64_same (reduce : Reduce G B T) (P : WalletP G q) (E : Sers G B T) (S S' : StateCtx G)
    (is : List (UnsignedInput G B)) (d : Option (List Bytes)) (cands : List (BoxCand G B T)) (u : UnsignedTransaction G B T)
    (hu : UnsignedTransaction.new E is d cands = .ok u) (c c' : TxBoxes G B T) (hints : Option (TxHints G q)) (t : Tx G B T)
    (ht : signTransaction reduce P E S u c hints = .ok t) :
    essence t = unsignedEssence u ∧ t.txId = u.txId ∧ t.bytesToSign E = u.bytesToSign E ∧ t.calcId E = .ok t.txId ∧
      (∀ i, makeContext S' t.spend c' i = makeContext S' (u.spend E) c' i) := by
  obtain ⟨h1, h2, h3, m, h4, h5⟩ := unsigned_new_spec E hu
  obtain ⟨m', o, g1, g2, g3, g4⟩ := signTransaction_spec.1 ht
  rw [h4, Outcome.ok.injEq] at g1
  subst g1
  have hts := signInputs_toSign g3
  have hess : essence t = unsignedEssence u := by
    rw [← toSign_toSign u.inputs, map_toSign_eq] at hts
    unfold essence unsignedEssence
    rw [g4]
    simp only
    rw [hts, List.map_map]
    rfl
  have hb : t.bytesToSign E = .ok m := by
    rw [Tx.bytesToSign_eq, hts, g4]
    exact (unsigned_bytes_spec E h4).1
  have hid : t.txId = E.H m := by rw [g4]
  refine ⟨hess, by rw [hid, h5], by rw [hb, h4], by unfold Tx.calcId; rw [hb, hid]; rfl, fun i => ?_⟩
  rw [spend_eq hess (by rw [h5, g2, g4])]

/-- C64: if the script of each input reduces, in the context the transaction describes, to a proposition the wallet can
prove, then signing succeeds and every input of the signed transaction is accepted by the verifier.  What is missing for
the full claim is what `C21_accepted_partial` misses: repeated branches of an OR, thresholds above the number of children
and trivial propositions inside connectives. -/
theorem C64_accepted_partial [NeZero q] (hq : q ≤ 2 ^ 256) (reduce : Reduce G B T) (P : WalletP G q)
    (hone : P.curve.codec.one = 0) (hs : SecretsOk P.secrets) (E : Sers G B T) (S : StateCtx G)
    (is : List (UnsignedInput G B)) (d : Option (List Bytes)) (cands : List (BoxCand G B T)) (u : UnsignedTransaction G B T)
    (hu : UnsignedTransaction.new E is d cands = .ok u) (boxes dataBoxes : List (EBox G B T)) (c : TxBoxes G B T)
    (hc : TxBoxes.new (u.spend E) boxes dataBoxes = .ok c)
    (hr : ∀ i ctx outs, outputsFrom E u.txId 0 cands = .ok outs → ContextOf S (unsignedEssence u) outs boxes dataBoxes i ctx →
      ∃ sb, reduce ctx.selfBox.tree ctx = .ok sb ∧ Provable P.curve.gen P.secrets sb) :
    ∃ t, signTransaction reduce P E S u c none = .ok t ∧ ∀ i, i < is.length → verifyInput q P.curve reduce E S t c i = .ok true := by
  obtain ⟨h1, h2, h3, m, h4, h5⟩ := unsigned_new_spec E hu
  -- each input
  have key : ∀ i inp, u.inputs[i]? = some inp → ∃ sb pr, inputProp reduce S (u.spend E) c i inp.boxId = .ok (sb, inp.extension) ∧
      P.proof none i sb m = .ok pr ∧ verifyProof q P.curve sb pr m = .ok true := by
    intro i inp hi
    have hlt : i < is.length := by rw [← h1]; exact (List.getElem?_eq_some_iff.1 hi).1
    obtain ⟨hex, outs, ho, hctxof⟩ := C64_context E S is d cands u hu boxes dataBoxes c hc i
    obtain ⟨ctx, hctx⟩ := hex.1 hlt
    have hof := hctxof ctx hctx
    obtain ⟨sb, hsb, hpv⟩ := hr i ctx outs ho hof
    obtain ⟨pr, hp1, hp2⟩ := proof_accepted hq P hone hs i sb hpv m
    refine ⟨sb, pr, ?_, hp1, hp2⟩
    have hself := hof.self
    have hgi : c.get inp.boxId = some ctx.selfBox := by
      have hm := hctx
      unfold makeContext at hm
      simp only [Outcome.bind_eq_ok, ofOpt_eq_ok] at hm
      obtain ⟨id, hid, b, hb, _, _, _, _, _, _, _, _, hz⟩ := hm
      simp only [Outcome.pure_eq, Outcome.ok.injEq] at hz
      subst hz
      change (u.inputs.map UnsignedInput.boxId)[i]? = some id at hid
      rw [List.getElem?_map, hi, Option.map_some, Option.some.injEq] at hid
      rw [hid]; exact hb
    have hext : ctx.extension = inp.extension := by
      change ((u.inputs.map fun x => (x.boxId, x.extension))[i]?) = _ at hself
      rw [List.getElem?_map, hi, Option.map_some, Option.some.injEq, Prod.mk.injEq] at hself
      exact hself.2.symm
    unfold inputProp
    simp only [hgi, ofOpt, Outcome.bind_ok, hctx, hsb, Outcome.pure_eq, hext]
  -- the list of signed inputs
  have hex : ∃ l : List (Input G B), signInputs reduce P E S u c none m 0 u.inputs.length = .ok l := by
    have : ∀ n i, i + n = u.inputs.length → ∃ l : List (Input G B), signInputs reduce P E S u c none m i n = .ok l := by
      intro n
      induction n with
      | zero => intro i _; exact ⟨[], rfl⟩
      | succ n ih =>
        intro i hin
        obtain ⟨l, hl⟩ := ih (i + 1) (by omega)
        have hi : u.inputs[i]? = some u.inputs[i] := List.getElem?_eq_getElem (by omega)
        obtain ⟨sb, pr, k1, k2, _⟩ := key i _ hi
        have := (signTxInput_spec (P := P) (hints := none) (m := m) hi _).2 ⟨sb, pr, k1, k2, rfl⟩
        refine ⟨⟨u.inputs[i].boxId, ⟨pr, u.inputs[i].extension⟩⟩ :: l, ?_⟩
        simp only [signInputs, this, hl, Outcome.bind_ok, Outcome.pure_eq]
    exact this _ 0 (by omega)
  obtain ⟨l, hl⟩ := hex
  obtain ⟨o, ho, hn⟩ := signed_new E h4 (signInputs_toSign hl)
  have hsign : signTransaction reduce P E S u c none
      = .ok { txId := E.H m, inputs := l, dataInputs := u.dataInputs, cands := u.cands, outputs := o } := by
    rw [signTransaction_spec]
    exact ⟨m, o, h4, ho, hl, rfl⟩
  refine ⟨_, hsign, fun i hi => ?_⟩
  obtain ⟨e1, e2, e3, e4, e5⟩ := C64_same reduce P E S S is d cands u hu c c none _ hsign
  rw [← h1] at hi
  have hui : u.inputs[i]? = some u.inputs[i] := List.getElem?_eq_getElem hi
  obtain ⟨hlen, hall⟩ := (signInputs_spec reduce P E S u c none m _ 0 l).1 hl
  have hli : l[i]? = some l[i] := List.getElem?_eq_getElem (by omega)
  have hone' := hall i _ hli
  rw [Nat.zero_add, signTxInput_spec hui] at hone'
  obtain ⟨sb', pr', k1, k2, k3⟩ := hone'
  obtain ⟨sb, pr, k4, k5, k6⟩ := key i _ hui
  rw [k1, Outcome.ok.injEq, Prod.mk.injEq] at k4
  obtain ⟨rfl, _⟩ := k4
  rw [k2, Outcome.ok.injEq] at k5
  subst k5
  have hsp := spend_eq (E := E) (u := u) e1 (by rw [h5]; exact ho)
  unfold verifyInput
  simp only [hli, ofOpt, Outcome.bind_ok, e3, h4]
  rw [hsp, k3, k1]
  simp only [Outcome.bind_ok]
  exact k6

/-- C64: signing without hints is refused when some input's script reduces, in the context the transaction describes, to a
proposition the wallet cannot prove. -/
theorem C64_refused (reduce : Reduce G B T) (P : WalletP G q) (hone : P.curve.codec.one = 0) (E : Sers G B T) (S : StateCtx G)
    (is : List (UnsignedInput G B)) (d : Option (List Bytes)) (cands : List (BoxCand G B T)) (u : UnsignedTransaction G B T)
    (hu : UnsignedTransaction.new E is d cands = .ok u) (boxes dataBoxes : List (EBox G B T)) (c : TxBoxes G B T)
    (hc : TxBoxes.new (u.spend E) boxes dataBoxes = .ok c) (i : Nat) (hi : i < is.length)
    (hr : ∀ ctx outs, outputsFrom E u.txId 0 cands = .ok outs → ContextOf S (unsignedEssence u) outs boxes dataBoxes i ctx →
      ∃ sb, reduce ctx.selfBox.tree ctx = .ok sb ∧ Unprovable P.curve.gen P.secrets sb) (t : Tx G B T) :
    signTransaction reduce P E S u c none ≠ .ok t := by
  intro ht
  obtain ⟨h1, h2, h3, m, h4, h5⟩ := unsigned_new_spec E hu
  obtain ⟨m', o, g1, g2, g3, g4⟩ := signTransaction_spec.1 ht
  obtain ⟨hlen, hall⟩ := (signInputs_spec reduce P E S u c none m' _ 0 _).1 g3
  rw [← h1] at hi
  have hui : u.inputs[i]? = some u.inputs[i] := List.getElem?_eq_getElem hi
  have hx := hall i _ (List.getElem?_eq_getElem (by omega))
  rw [Nat.zero_add, signTxInput_spec hui] at hx
  obtain ⟨sb, pr, k1, k2, _⟩ := hx
  unfold inputProp at k1
  simp only [Outcome.bind_eq_ok, ofOpt_eq_ok] at k1
  obtain ⟨b, b1, ctx, b2, sb', b3, b4⟩ := k1
  simp only [Outcome.pure_eq, Outcome.ok.injEq, Prod.mk.injEq] at b4
  obtain ⟨rfl, _⟩ := b4
  obtain ⟨_, outs, ho, hctxof⟩ := C64_context E S is d cands u hu boxes dataBoxes c hc i
  have hof := hctxof ctx b2
  have hself : ctx.selfBox = b := by
    have hm := b2
    unfold makeContext at hm
    simp only [Outcome.bind_eq_ok, ofOpt_eq_ok] at hm
    obtain ⟨id, hid, b', hb, _, _, _, _, _, _, _, _, hz⟩ := hm
    simp only [Outcome.pure_eq, Outcome.ok.injEq] at hz
    subst hz
    change (u.inputs.map UnsignedInput.boxId)[i]? = some id at hid
    rw [List.getElem?_map, hui, Option.map_some, Option.some.injEq] at hid
    rw [← hid, b1, Option.some.injEq] at hb
    exact hb.symm
  obtain ⟨sb2, r1, r2⟩ := hr ctx outs ho hof
  rw [hself, b3, Outcome.ok.injEq] at r1
  subst r1
  rw [proof_refused P hone i _ r2 m'] at k2
  cases k2

/-- C64: signing one input gives the input that signing the whole transaction puts at its place; there are no others. -/
theorem C64_single (reduce : Reduce G B T) (P : WalletP G q) (E : Sers G B T) (S : StateCtx G) (u : UnsignedTransaction G B T)
    (c : TxBoxes G B T) (hints : Option (TxHints G q)) (t : Tx G B T) (ht : signTransaction reduce P E S u c hints = .ok t)
    (i : Nat) (x : Input G B) : t.inputs[i]? = some x ↔ walletSignInput reduce P E S u c hints i = .ok x := by
  obtain ⟨m, o, g1, g2, g3, g4⟩ := signTransaction_spec.1 ht
  obtain ⟨hlen, hall⟩ := (signInputs_spec reduce P E S u c hints m _ 0 _).1 g3
  unfold walletSignInput
  simp only [g1, Outcome.bind_ok]
  constructor
  · intro h
    simpa using hall i x h
  · intro h
    have hlt : i < u.inputs.length := by
      unfold signTxInput at h
      simp only [Outcome.bind_eq_ok, ofOpt_eq_ok] at h
      obtain ⟨inp, hi, _⟩ := h
      exact (List.getElem?_eq_some_iff.1 hi).1
    have hx := List.getElem?_eq_getElem (by omega : i < t.inputs.length)
    have := hall i _ hx
    rw [Nat.zero_add, h, Outcome.ok.injEq] at this
    rw [hx, ← this]

/-- C64: the proof of an input is made with the hints added for this input and no others. -/
theorem C64_hints_isolated (reduce : Reduce G B T) (P : WalletP G q) (E : Sers G B T) (S : StateCtx G)
    (u : UnsignedTransaction G B T) (c : TxBoxes G B T) (h h' : List (BagOp G q)) (i : Nat)
    (hsame : h.filter (fun op => decide (op.input = i)) = h'.filter (fun op => decide (op.input = i))) :
    walletSignInput reduce P E S u c (some (bagAfter h)) i = walletSignInput reduce P E S u c (some (bagAfter h')) i := by
  have : hintsFor (some (bagAfter h)) i = hintsFor (some (bagAfter h')) i := C44_isolation h h' i hsame
  unfold walletSignInput signTxInput WalletP.proof
  rw [this]

/-- C64: a proof belongs to its transaction.  If two transactions carry the same proof, it answers the same (non-trivial)
proposition and the verifier accepts it in both, then both spend, read and create the same, or the challenge hash, cut to 24
bytes, has the same value on two different strings. -/
theorem C64_bound (C : Curve G) (E : Sers G B T) (bwf : B → Prop) (twf : T → Prop) (hE : GoodSers E bwf twf)
    (t t' : Tx G B T) (g : GoodTx E bwf twf t) (g' : GoodTx E bwf twf t') (sb : SigmaBoolean G) (hnt : nontrivial sb)
    (proof : ProofBytes) (m m' : Bytes) (hm : t.bytesToSign E = .ok m) (hm' : t'.bytesToSign E = .ok m')
    (h : verifyProof q C sb proof m = .ok true) (h' : verifyProof q C sb proof m' = .ok true) :
    essence t = essence t' ∨ ∃ s s', s ≠ s' ∧ (C.hash s).take 24 = (C.hash s').take 24 := by
  by_cases he : m = m'
  · subst he
    exact .inl (C10_bytes_injective E bwf twf hE t t' g g' m hm hm')
  · right
    have hs : ∀ x, verifyProof q C sb proof x = .ok true →
        ∃ bs tr, proof = .some bs ∧ parseSigComputeChallenges (q := q) sb bs = .ok tr ∧ checkCommitments C tr x = .ok true := by
      intro x hx
      cases proof with
      | empty => cases sb <;> first | exact hnt.elim | (cases hx)
      | some bs =>
        cases sb with
        | trivial b => exact hnt.elim
        | _ =>
          simp only [verifyProof, Outcome.bind_eq_ok] at hx
          obtain ⟨tr, e1, e2⟩ := hx
          exact ⟨bs, tr, rfl, e1, e2⟩
    obtain ⟨bs, tr, e1, e2, e3⟩ := hs m h
    obtain ⟨bs', tr', f1, f2, f3⟩ := hs m' h'
    rw [e1, ProofBytes.some.injEq] at f1
    subst f1
    rw [e2, Outcome.ok.injEq] at f2
    subst f2
    unfold checkCommitments at e3 f3
    simp only [Outcome.bind_eq_ok, Outcome.pure_eq, Outcome.ok.injEq] at e3 f3
    obtain ⟨s, e4, e5⟩ := e3
    obtain ⟨s', f4, f5⟩ := f3
    rw [e4, Outcome.ok.injEq] at f4
    subst f4
    refine ⟨s ++ m, s ++ m', fun hh => he (List.append_cancel_left hh), ?_⟩
    have a1 := of_decide_eq_true e5
    have a2 := of_decide_eq_true f5
    exact congrArg Subtype.val (a1.symm.trans a2)

/-- C65: signing a transaction and signing its reduction give the same result, with any hints: the one succeeds with `t` if
and only if the transaction can be reduced and signing the reduction succeeds with `t`. -/
theorem C65_agrees (reduce : Reduce G B T) (P : WalletP G q) (E : Sers G B T) (S : StateCtx G) (u : UnsignedTransaction G B T)
    (c : TxBoxes G B T) (hints : Option (TxHints G q)) (t : Tx G B T) :
    signTransaction reduce P E S u c hints = .ok t ↔
      ∃ r, reduceTx reduce E S u c = .ok r ∧ signReduced P E r hints = .ok t := by
  have hlist : ∀ (m : Bytes) (l : List (Input G B)), signInputs reduce P E S u c hints m 0 u.inputs.length = .ok l →
      ∃ rs, reduceInputs reduce S (u.spend E) c 0 u.inputs = .ok rs ∧ signReducedInputs P hints m rs 0 u.inputs = .ok l := by
    intro m l hl
    obtain ⟨h1, h2⟩ := (signInputs_spec reduce P E S u c hints m _ 0 l).1 hl
    have hred : ∀ (ins : List (UnsignedInput G B)) (i : Nat), (∀ k inp, ins[k]? = some inp → u.inputs[i + k]? = some inp) →
        ∃ rs, reduceInputs reduce S (u.spend E) c i ins = .ok rs := by
      intro ins
      induction ins with
      | nil => intro i _; exact ⟨[], rfl⟩
      | cons a ins ih =>
        intro i hsub
        obtain ⟨rs, hrs⟩ := ih (i + 1) (fun k inp hk => by
          have := hsub (k + 1) inp (by simpa using hk)
          rwa [show i + (k + 1) = i + 1 + k by omega] at this)
        have ha := hsub 0 a rfl
        rw [Nat.add_zero] at ha
        have hlt : i < l.length := by rw [h1]; exact (List.getElem?_eq_some_iff.1 ha).1
        have := h2 i _ (List.getElem?_eq_getElem hlt)
        rw [Nat.zero_add, signTxInput_spec ha] at this
        obtain ⟨sb, pr, k1, _⟩ := this
        refine ⟨{ prop := sb, cost := 0, extension := a.extension } :: rs, ?_⟩
        simp only [reduceInputs, k1, hrs, Outcome.bind_ok, Outcome.pure_eq]
    obtain ⟨rs, hrs⟩ := hred u.inputs 0 (fun k inp hk => by simpa using hk)
    refine ⟨rs, hrs, ?_⟩
    obtain ⟨g1, g2⟩ := (reduceInputs_spec reduce S (u.spend E) c u.inputs 0 rs).1 hrs
    rw [signReducedInputs_spec]
    refine ⟨h1, fun k inp x hk hx => ?_⟩
    have hx' := h2 k x hx
    rw [Nat.zero_add, signTxInput_spec hk] at hx'
    obtain ⟨sb, pr, k1, k2, k3⟩ := hx'
    have hlt : k < rs.length := by rw [g1]; exact (List.getElem?_eq_some_iff.1 hk).1
    have hr := List.getElem?_eq_getElem hlt
    obtain ⟨e, e1, e2, e3⟩ := g2 k inp _ hk hr
    rw [Nat.zero_add, k1, Outcome.ok.injEq, Prod.mk.injEq] at e1
    rw [Nat.zero_add]
    exact ⟨rs[k], pr, hr, by rw [← e1.1]; exact k2, by rw [k3, e3]⟩
  constructor
  · intro h
    obtain ⟨m, o, g1, g2, g3, g4⟩ := signTransaction_spec.1 h
    obtain ⟨rs, h1, h2⟩ := hlist m _ g3
    refine ⟨{ tx := u, cost := 0, inputs := rs }, by unfold reduceTx; rw [h1]; rfl, ?_⟩
    unfold signReduced
    simp only [g1, Outcome.bind_ok, h2]
    unfold signTransaction at h
    simpa only [g1, Outcome.bind_ok, g3] using h
  · rintro ⟨r, h1, h2⟩
    unfold reduceTx at h1
    obtain ⟨rs, g1, g2⟩ := Outcome.bind_eq_ok.1 h1
    simp only [Outcome.pure_eq, Outcome.ok.injEq] at g2
    subst g2
    unfold signReduced at h2
    simp only [Outcome.bind_eq_ok] at h2
    obtain ⟨m, h3, l, h4, h5⟩ := h2
    have hl : signInputs reduce P E S u c hints m 0 u.inputs.length = .ok l := by
      obtain ⟨a1, a2⟩ := (reduceInputs_spec reduce S (u.spend E) c u.inputs 0 rs).1 g1
      obtain ⟨b1, b2⟩ := (signReducedInputs_spec P hints m rs u.inputs 0 l).1 h4
      rw [signInputs_spec]
      refine ⟨b1, fun k x hx => ?_⟩
      have hlt : k < u.inputs.length := by rw [← b1]; exact (List.getElem?_eq_some_iff.1 hx).1
      have hk : u.inputs[k]? = some u.inputs[k] := List.getElem?_eq_getElem hlt
      obtain ⟨r, pr, c1, c2, c3⟩ := b2 k _ x hk hx
      rw [Nat.zero_add] at c1 c2
      obtain ⟨e, d1, d2, d3⟩ := a2 k _ r hk c1
      rw [Nat.zero_add] at d1 ⊢
      rw [signTxInput_spec hk]
      have hext := inputProp_ext hk d1
      simp only at hext
      subst hext
      exact ⟨r.prop, pr, d1, c2, by rw [c3, d3]⟩
    unfold signTransaction
    simp only [h3, Outcome.bind_ok, hl]
    exact h5

/-- A reduced transaction as the library makes them: every reduced input has the context variables of its input. -/
structure MadeReduced (E : Sers G B T) (r : ReducedTx G B T) : Prop where
  made : UnsignedTransaction.new E r.tx.inputs r.tx.dataInputs r.tx.cands = .ok r.tx
  exts : r.inputs.map ReducedInput.extension = r.tx.inputs.map UnsignedInput.extension

/-- C65: reducing a transaction made by the constructor gives such a reduced transaction, for the transaction itself. -/
theorem C65_made (reduce : Reduce G B T) (E : Sers G B T) (S : StateCtx G) (u : UnsignedTransaction G B T)
    (hu : UnsignedTransaction.new E u.inputs u.dataInputs u.cands = .ok u) (c : TxBoxes G B T) (r : ReducedTx G B T)
    (h : reduceTx reduce E S u c = .ok r) : r.tx = u ∧ MadeReduced E r := by
  unfold reduceTx at h
  obtain ⟨rs, g1, g2⟩ := Outcome.bind_eq_ok.1 h
  simp only [Outcome.pure_eq, Outcome.ok.injEq] at g2
  subst g2
  refine ⟨rfl, hu, ?_⟩
  obtain ⟨a1, a2⟩ := (reduceInputs_spec reduce S (u.spend E) c u.inputs 0 rs).1 g1
  apply List.ext_getElem
  · simp [a1]
  · intro i h1 h2
    simp only [List.length_map] at h1 h2
    simp only [List.getElem_map]
    obtain ⟨_, _, _, e⟩ := a2 i _ _ (List.getElem?_eq_getElem h2) (List.getElem?_eq_getElem h1)
    exact e

/-- C65: a reduced transaction is written, and reading the bytes in any stream gives back the same reduced transaction
(propositions, costs, context variables, unsigned transaction with its id) and leaves what followed.  So signing after
the transfer gives what signing before the transfer gives. -/
theorem C65_transfer (E : Sers G B T) (bwf : B → Prop) (twf : T → Prop) (hE : GoodSers E bwf twf) (r : ReducedTx G B T)
    (hr : MadeReduced E r)
    (hg : GoodParts E.utf8 bwf twf (r.tx.inputs.map UnsignedInput.toSign) r.tx.dataInputs r.tx.cands)
    (hb : ∀ x ∈ r.inputs, x.prop.Bounded) (hsize : ∀ m, r.tx.bytesToSign E = .ok m → m.length < 2 ^ 32) :
    ∃ bs, ReducedTx.ser E r = .ok bs ∧ ∀ rest, ReducedTx.parse E (bs ++ rest) = some (r, rest) := by
  have hl : r.inputs.length = r.tx.inputs.length := by simpa using congrArg List.length hr.exts
  obtain ⟨bs, u, h1, h2, h3⟩ := ReducedTx.rt E hE r hg hl hb hsize
  rw [hr.made, Outcome.ok.injEq] at h2
  subst h2
  refine ⟨bs, h1, fun rest => ?_⟩
  rw [h3]
  have : List.zipWith (fun (inp : UnsignedInput G B) (x : ReducedInput G B) =>
      ({ prop := x.prop, cost := x.cost, extension := inp.extension } : ReducedInput G B)) r.tx.inputs r.inputs = r.inputs := by
    apply List.ext_getElem
    · simp [hl]
    · intro i i1 i2
      rw [List.getElem_zipWith]
      have := congrArg (fun l : List (Extension G B) => l[i]?) hr.exts
      simp only [List.getElem?_map] at this
      rw [List.getElem?_eq_getElem i2, List.getElem?_eq_getElem (by omega), Option.map_some, Option.map_some,
        Option.some.injEq] at this
      rw [← this]
  rw [this]

/-- C65: commitments made from the reduced transaction are those made from the transaction. -/
theorem C65_commitments (reduce : Reduce G B T) (C : Curve G) (r : Nat → Position → ZMod q) (E : Sers G B T) (S : StateCtx G)
    (u : UnsignedTransaction G B T) (c : TxBoxes G B T) (keys : List (SigmaBoolean G)) (b : TxHints G q) :
    commitTx reduce C r E S u c keys = .ok b ↔ ∃ red, reduceTx reduce E S u c = .ok red ∧ commitReduced C r red keys = b := by
  have key : ∀ (ins : List (UnsignedInput G B)) (i : Nat) (b0 : TxHints G q),
      commitInputs reduce C r S (u.spend E) c keys i (ins.map UnsignedInput.boxId) b0 = .ok b ↔
        ∃ rs, reduceInputs reduce S (u.spend E) c i ins = .ok rs ∧
          generateCommitments C r keys (rs.map ReducedInput.prop) i b0 = b := by
    intro ins
    induction ins with
    | nil => intro i b0; simp [commitInputs, reduceInputs, generateCommitments]
    | cons a ins ih =>
      intro i b0
      simp only [List.map_cons, commitInputs, reduceInputs, Outcome.bind_eq_ok, ih, Outcome.pure_eq, Outcome.ok.injEq]
      constructor
      · rintro ⟨p, h1, rs, h2, h3⟩
        exact ⟨_, ⟨p, h1, rs, h2, rfl⟩, h3⟩
      · rintro ⟨_, ⟨p, h1, rs, h2, rfl⟩, h3⟩
        exact ⟨p, h1, rs, h2, h3⟩
  unfold commitTx commitReduced reduceTx
  rw [key]
  simp only [Outcome.bind_eq_ok, Outcome.pure_eq, Outcome.ok.injEq]
  constructor
  · rintro ⟨rs, h1, h2⟩
    exact ⟨_, ⟨rs, h1, rfl⟩, h2⟩
  · rintro ⟨_, ⟨rs, h1, rfl⟩, h2⟩
    exact ⟨rs, h1, h2⟩

/-- C64: what the verdict on an input means: the script of its box, in the context the transaction describes, reduces to "true", or to a
proposition for which the proof carried by the input is a signature of the bytes of this transaction.  An input whose script reduces to
"false" is never accepted, nor one that needs a proof and has none. -/
theorem C64_verify (reduce : Reduce G B T) (C : Curve G) (E : Sers G B T) (S : StateCtx G) (t : Tx G B T) (c : TxBoxes G B T)
    (i : Nat) (inp : Input G B) (hi : t.inputs[i]? = some inp) :
    verifyInput q C reduce E S t c i = .ok true ↔ ∃ message sb ext, t.bytesToSign E = .ok message ∧
      inputProp reduce S t.spend c i inp.boxId = .ok (sb, ext) ∧
      (sb = .trivial true ∨ (nontrivial sb ∧ ∃ bs, inp.proof.proof = .some bs ∧ verifySignature q C sb message bs = .ok true)) := by
  have key : ∀ (sb : SigmaBoolean G) (proof : ProofBytes) (message : Bytes), verifyProof q C sb proof message = .ok true ↔
      (sb = .trivial true ∨ (nontrivial sb ∧ ∃ bs, proof = .some bs ∧ verifySignature q C sb message bs = .ok true)) := by
    intro sb proof message
    have hnt : ∀ x : SigmaBoolean G, nontrivial x → ∀ bs, (verifyProof q C x (.some bs) message = .ok true ↔
        verifySignature q C x message bs = .ok true) := by
      intro x hx bs
      by_cases hb : bs = []
      · subst hb
        cases x <;> first | exact False.elim hx | simp [verifyProof, verifySignature, parseSigComputeChallenges]
      · cases x <;> first | exact False.elim hx | simp [verifyProof, verifySignature, hb]
    have hem : ∀ x : SigmaBoolean G, nontrivial x → verifyProof q C x .empty message = .ok false := by
      intro x hx
      cases x <;> first | exact False.elim hx | rfl
    cases hsb : sb with
    | «trivial» b =>
      cases b <;> simp [verifyProof, nontrivial]
    | dlog h =>
      have hx : nontrivial (SigmaBoolean.dlog h : SigmaBoolean G) := trivial
      cases proof with
      | empty => rw [hem _ hx]; simp
      | some bs => rw [hnt _ hx]; simp [hx]
    | dht g h u v =>
      have hx : nontrivial (SigmaBoolean.dht g h u v : SigmaBoolean G) := trivial
      cases proof with
      | empty => rw [hem _ hx]; simp
      | some bs => rw [hnt _ hx]; simp [hx]
    | cand l =>
      have hx : nontrivial (SigmaBoolean.cand l : SigmaBoolean G) := trivial
      cases proof with
      | empty => rw [hem _ hx]; simp
      | some bs => rw [hnt _ hx]; simp [hx]
    | cor l =>
      have hx : nontrivial (SigmaBoolean.cor l : SigmaBoolean G) := trivial
      cases proof with
      | empty => rw [hem _ hx]; simp
      | some bs => rw [hnt _ hx]; simp [hx]
    | cth k l =>
      have hx : nontrivial (SigmaBoolean.cth k l : SigmaBoolean G) := trivial
      cases proof with
      | empty => rw [hem _ hx]; simp
      | some bs => rw [hnt _ hx]; simp [hx]
  unfold verifyInput
  rw [hi]
  simp only [ofOpt, Outcome.bind_ok, Outcome.bind_eq_ok, key]
  constructor
  · rintro ⟨m, h1, ⟨sb, ext⟩, h2, h3⟩
    exact ⟨m, sb, ext, h1, h2, h3⟩
  · rintro ⟨m, sb, ext, h1, h2, h3⟩
    exact ⟨m, h1, (sb, ext), h2, h3⟩

/-- C65: the hints extracted from a signed transaction are, for every input, those extracted from the proof it carries for the proposition
of its script, with the given keys as real and simulated; there are none beyond the inputs. -/
theorem C65_extract (reduce : Reduce G B T) (C : Curve G) (S : StateCtx G) (t : Tx G B T) (c : TxBoxes G B T)
    (real sim : List (SigmaBoolean G)) (b : TxHints G q) (h : extractTx reduce C S t c real sim = .ok b) :
    (∀ i inp, t.inputs[i]? = some inp → ∃ sb ext hs, inputProp reduce S t.spend c i inp.boxId = .ok (sb, ext) ∧
      bagForMultiSig C sb real sim inp.proof.proof.toBytes = .ok hs ∧
      b.allFor i = hs.filter Hint.isProven ++ hs.filter Hint.isCommitment) ∧
    (∀ i, t.inputs.length ≤ i → b.allFor i = []) := by
  have key : ∀ (l : List (Input G B)) (k : Nat) (b0 : TxHints G q),
      extractInputs reduce C S t.spend c real sim k l b0 = .ok b → ∃ ps : List (SigmaBoolean G × Bytes),
        ps.length = l.length ∧ extractHints C real sim ps k b0 = .ok b ∧
        ∀ j inp, l[j]? = some inp → ∃ sb ext, inputProp reduce S t.spend c (k + j) inp.boxId = .ok (sb, ext) ∧
          ps[j]? = some (sb, inp.proof.proof.toBytes) := by
    intro l
    induction l with
    | nil =>
      intro k b0 h
      exact ⟨[], rfl, h, fun j inp hj => by simp at hj⟩
    | cons a l ih =>
      intro k b0 h
      obtain ⟨⟨sb, ext⟩, h1, h2⟩ := Outcome.bind_eq_ok.1 h
      obtain ⟨hs, h3, h4⟩ := Outcome.bind_eq_ok.1 h2
      obtain ⟨ps, h5, h6, h7⟩ := ih (k + 1) _ h4
      refine ⟨(sb, a.proof.proof.toBytes) :: ps, by simp [h5], ?_, ?_⟩
      · rw [extractHints]
        exact Outcome.bind_eq_ok.2 ⟨hs, h3, h6⟩
      · intro j inp hj
        cases j with
        | zero =>
          simp only [List.getElem?_cons_zero, Option.some.injEq] at hj
          subst hj
          exact ⟨sb, ext, h1, rfl⟩
        | succ j =>
          obtain ⟨sb', ext', h8, h9⟩ := h7 j inp (by simpa using hj)
          refine ⟨sb', ext', by rw [← h8]; congr 1; omega, by simpa using h9⟩
  obtain ⟨ps, h1, h2, h3⟩ := key t.inputs 0 _ h
  obtain ⟨h4, h5⟩ := C44_extract C real sim ps b h2
  refine ⟨fun i inp hi => ?_, fun i hi => h5 i (by omega)⟩
  obtain ⟨sb, ext, h6, h7⟩ := h3 i inp hi
  obtain ⟨hs, h8, h9⟩ := h4 i sb _ h7
  rw [Nat.zero_add] at h6
  exact ⟨sb, ext, hs, h6, h8, h9⟩

end
end

/-! ## Cases -/

/-- Serializers over the group of the toy curve. -/
def sgSers : Sers (ZMod 3) Empty Byte := toySers

/-- A block at height 3. -/
def sgState : StateCtx (ZMod 3) :=
  { preHeader := { version := 2, parentId := tid 0, timestamp := 5, nBits := 6, height := 3, minerPk := 1, votes := [0, 0, 0] },
    headers := [] }

/-- A wallet with the secrets of the toy prover. -/
def sgWallet : WalletP (ZMod 3) 3 := { curve := toyCurve, secrets := toyProver.secrets, rnd := fun _ => toyRnd }

/-- Tree 7 asks for a threshold signature, tree 8 checks the height and the number of outputs, tree 9 asks for an unknown
secret, others fail. -/
def sgReduce : Reduce (ZMod 3) Empty Byte := fun tree ctx =>
  if tree = 7 then .ok toyProp
  else if tree = 8 then .ok (.trivial (decide (ctx.height = 3 ∧ ctx.selfBox.value ≤ 1000000)))
  else if tree = 9 then .ok (.cand [.dlog 2, .dlog 1])
  else .err

/-- A box with the given id and tree. -/
def sgBox (id : Byte) (tree : Byte) : EBox (ZMod 3) Empty Byte :=
  { boxId := tid id, value := 1000000, tree := tree, tokens := none, regs := [], height := 1, txId := tid 5, index := 0 }

/-- Two inputs, one with a context variable. -/
def sgInputs (n : BitVec 32) : List (UnsignedInput (ZMod 3) Empty) := [⟨tid 9, [(0, intConst n)]⟩, ⟨tid 8, []⟩]

def sgCands : List (BoxCand (ZMod 3) Empty Byte) := exCands

/-- The unsigned transaction. -/
def sgTx (n : BitVec 32) : Outcome (UnsignedTransaction (ZMod 3) Empty Byte) :=
  UnsignedTransaction.new sgSers (sgInputs n) (some [tid 3]) sgCands

/-- The boxes of the context; the second is guarded by `tree`. -/
def sgBoxes (tree : Byte) : List (EBox (ZMod 3) Empty Byte) := [sgBox 1 8, sgBox 8 tree, sgBox 9 7]

/-- Sign, then verify both inputs. -/
def sgRun (tree : Byte) : Outcome (List Bool) := do
  let u ← sgTx 5
  let c ← TxBoxes.new (u.spend sgSers) (sgBoxes tree) [sgBox 3 8]
  let t ← signTransaction sgReduce sgWallet sgSers sgState u c none
  let a ← verifyInput 3 toyCurve sgReduce sgSers sgState t c 0
  let b ← verifyInput 3 toyCurve sgReduce sgSers sgState t c 1
  pure [a, b]

/-- The run of `C64_accepted_partial`, and that of `C64_refused`. -/
example : sgRun 8 = .ok [true, true] ∧ sgRun 9 = .err := by decide +kernel

theorem sg_tx_ok : ∃ u, sgTx 5 = .ok u := by
  have : (match sgTx 5 with | .ok _ => true | _ => false) = true := by decide +kernel
  cases h : sgTx 5 with
  | ok u => exact ⟨u, rfl⟩
  | err => rw [h] at this; cases this
  | panic => rw [h] at this; cases this

theorem sg_boxes_ok (tree : Byte) (u : UnsignedTransaction (ZMod 3) Empty Byte) (h : sgTx 5 = .ok u) :
    ∃ c, TxBoxes.new (u.spend sgSers) (sgBoxes tree) [sgBox 3 8] = .ok c := by
  obtain ⟨h1, h2, h3, _⟩ := unsigned_new_spec _ h
  refine ⟨⟨sgBoxes tree, some [sgBox 3 8]⟩, ?_⟩
  have e1 : (u.spend sgSers).inputIds = [tid 9, tid 8] := by
    show u.inputs.map UnsignedInput.boxId = _
    rw [h1]; rfl
  have e2 : (u.spend sgSers).dataInputs = some [tid 3] := h2
  unfold TxBoxes.new
  rw [e1, e2]
  have e3 : ([tid 9, tid 8].all fun id => (sgBoxes tree).any fun b => decide (id = b.boxId)) = true := by
    simp [sgBoxes, sgBox]
  have e4 : ioVec (sgBoxes tree) = some (sgBoxes tree) := rfl
  have e5 : optIoVec [sgBox 3 8] = some (some [sgBox 3 8]) := rfl
  have e6 : ([tid 3].all fun id => [sgBox 3 8].any fun b => decide (id = b.boxId)) = true := by
    simp [sgBox]
  simp only [e4, e5, ofOpt, Outcome.bind_ok, e3, e6]
  rfl

theorem toyProp_provable : Provable toyCurve.gen sgWallet.secrets toyProp :=
  .inr ⟨by simp [toyProp, NoTrivial, NoTrivialList], by simp [toyProp, SigmaBoolean.Bounded, SigmaBoolean.BoundedList],
    by simp [toyProp, ThrOk, ThrOkList], by simp [toyProp, OrDistinct, OrDistinctList], by decide +kernel⟩

/-- The hypotheses of `C64_accepted_partial` hold in a case with a threshold proposition, a script that looks at the context,
a context variable and a data input. -/
example : SecretsOk sgWallet.secrets ∧ sgWallet.curve.codec.one = 0 ∧ ∃ u c, sgTx 5 = .ok u ∧
    TxBoxes.new (u.spend sgSers) (sgBoxes 8) [sgBox 3 8] = .ok c ∧
    ∀ i ctx outs, outputsFrom sgSers u.txId 0 sgCands = .ok outs →
      ContextOf sgState (unsignedEssence u) outs (sgBoxes 8) [sgBox 3 8] i ctx →
      ∃ sb, sgReduce ctx.selfBox.tree ctx = .ok sb ∧ Provable sgWallet.curve.gen sgWallet.secrets sb := by
  refine ⟨?_, rfl, ?_⟩
  · intro s hs
    simp only [sgWallet, toyProver, List.mem_cons, List.not_mem_nil, or_false] at hs
    rcases hs with rfl | rfl
    · trivial
    · show (2 : ZMod 3) = 2 • (1 : ZMod 3) ∧ (1 : ZMod 3) = (2 : ZMod 3) • (2 : ZMod 3)
      decide
  obtain ⟨u, hu⟩ := sg_tx_ok
  obtain ⟨c, hc⟩ := sg_boxes_ok 8 u hu
  refine ⟨u, c, hu, hc, fun i ctx outs _ hof => ?_⟩
  have hm := hof.given _ (List.mem_of_getElem? hof.selfAt)
  have hh : ctx.height = 3 := hof.height
  have h8 : ∀ id, ctx.selfBox = sgBox id 8 → ∃ sb, sgReduce ctx.selfBox.tree ctx = .ok sb ∧
      Provable sgWallet.curve.gen sgWallet.secrets sb := by
    intro id he
    refine ⟨.trivial true, ?_, .inl rfl⟩
    rw [he]
    show Outcome.ok (SigmaBoolean.trivial (decide (ctx.height = 3 ∧ ctx.selfBox.value ≤ 1000000))) = _
    rw [he, hh]; rfl
  simp only [sgBoxes, List.mem_cons, List.not_mem_nil, or_false] at hm
  rcases hm with he | he | he
  · exact h8 _ he
  · exact h8 _ he
  · exact ⟨toyProp, by rw [he]; rfl, toyProp_provable⟩

/-- The hypotheses of `C64_refused` hold for the second input when its box asks for an unknown secret. -/
example : ∃ u c, sgTx 5 = .ok u ∧ TxBoxes.new (u.spend sgSers) (sgBoxes 9) [sgBox 3 8] = .ok c ∧
    1 < (sgInputs 5).length ∧
    ∀ ctx outs, outputsFrom sgSers u.txId 0 sgCands = .ok outs →
      ContextOf sgState (unsignedEssence u) outs (sgBoxes 9) [sgBox 3 8] 1 ctx →
      ∃ sb, sgReduce ctx.selfBox.tree ctx = .ok sb ∧ Unprovable sgWallet.curve.gen sgWallet.secrets sb := by
  obtain ⟨u, hu⟩ := sg_tx_ok
  obtain ⟨c, hc⟩ := sg_boxes_ok 9 u hu
  refine ⟨u, c, hu, hc, by decide, fun ctx outs _ hof => ?_⟩
  have hm := hof.given _ (List.mem_of_getElem? hof.selfAt)
  have hs := hof.self
  change (u.inputs.map fun i => (i.boxId, i.extension))[1]? = _ at hs
  rw [(unsigned_new_spec _ hu).1] at hs
  have hid : tid 8 = ctx.selfBox.boxId := by
    have := congrArg (Option.map Prod.fst) hs
    simpa [sgInputs] using this
  simp only [sgBoxes, List.mem_cons, List.not_mem_nil, or_false] at hm
  rcases hm with he | he | he
  · rw [he] at hid; exact absurd hid (by decide)
  · exact ⟨.cand [.dlog 2, .dlog 1], by rw [he]; rfl, .inr ⟨by simp [NoTrivial, NoTrivialList], by decide +kernel⟩⟩
  · rw [he] at hid; exact absurd hid (by decide)

/-- A proof to which `C64_bound` applies. -/
example : ∃ proof, nontrivial toyProp ∧ verifyProof 3 toyCurve toyProp proof [7, 7] = .ok true :=
  ⟨.some (match generateProof toyProver toyProp [7, 7] with | .ok s => s | _ => []), trivial, by decide +kernel⟩

/-- A missing box. -/
example : ∃ u, sgTx 5 = .ok u ∧ ∃ id ∈ (u.spend sgSers).inputIds, ∀ b ∈ [sgBox 1 8, sgBox 9 7], b.boxId ≠ id := by
  obtain ⟨u, hu⟩ := sg_tx_ok
  refine ⟨u, hu, tid 8, ?_, by decide⟩
  show _ ∈ u.inputs.map UnsignedInput.boxId
  rw [(unsigned_new_spec _ hu).1]
  decide

/-- Reduce, write, read, sign, verify both inputs. -/
def sgTransfer : Outcome (List Bool) := do
  let u ← sgTx 5
  let c ← TxBoxes.new (u.spend sgSers) (sgBoxes 8) [sgBox 3 8]
  let r ← reduceTx sgReduce sgSers sgState u c
  let bs ← ReducedTx.ser sgSers r
  let r' ← ofOpt ((ReducedTx.parse sgSers bs).map Prod.fst)
  let t ← signReduced sgWallet sgSers r' none
  let a ← verifyInput 3 toyCurve sgReduce sgSers sgState t c 0
  let b ← verifyInput 3 toyCurve sgReduce sgSers sgState t c 1
  pure [a, b]

/-- Sign, then extract hints: how many there are for each input, and for one more. -/
def sgExtract : Outcome (List Nat) := do
  let u ← sgTx 5
  let c ← TxBoxes.new (u.spend sgSers) (sgBoxes 8) [sgBox 3 8]
  let t ← signTransaction sgReduce sgWallet sgSers sgState u c none
  let b ← extractTx (q := 3) sgReduce toyCurve sgState t c [.dlog 2] [.dlog 1]
  pure [(b.allFor 0).length, (b.allFor 1).length, (b.allFor 2).length]

/-- The runs of `C65_extract`, and of `C64_verify` with a script that reduces to false. -/
example : sgExtract = .ok [6, 0, 0] ∧ verifyProof 3 toyCurve (.trivial false) (.some [1]) [] = .ok false ∧
    verifyProof 3 toyCurve (.trivial true) .empty [] = .ok true := by decide +kernel

/-- The run of `C65_transfer` and `C65_agrees`. -/
example : sgTransfer = .ok [true, true] := by decide +kernel

/-- The hypotheses of `C65_transfer`. -/
example : ∃ r, MadeReduced sgSers r ∧
    GoodParts sgSers.utf8 (fun _ => True) (fun _ => True) (r.tx.inputs.map UnsignedInput.toSign) r.tx.dataInputs r.tx.cands ∧
    (∀ x ∈ r.inputs, x.prop.Bounded) ∧ r.inputs.length = 2 := by
  obtain ⟨u, hu⟩ := sg_tx_ok
  obtain ⟨h1, h2, h3, _⟩ := unsigned_new_spec _ hu
  refine ⟨{ tx := u, cost := 0, inputs := [⟨toyProp, 0, [(0, intConst 5)]⟩, ⟨.trivial true, 0, []⟩] }, ⟨?_, ?_⟩, ?_, ?_, rfl⟩
  · rw [h1, h2, h3]; exact hu
  · rw [h1]; rfl
  · rw [h1, h2, h3]
    have := goodParts_toSign exParts_good
    exact this
  · intro x hx
    simp only [List.mem_cons, List.not_mem_nil, or_false] at hx
    rcases hx with rfl | rfl
    · simp [toyProp, SigmaBoolean.Bounded, SigmaBoolean.BoundedList]
    · simp [SigmaBoolean.Bounded]

/-- Sign a reduced transaction whose public field `unsigned_tx` was replaced by the same transaction with another value of
the context variable; the result is verified, and compared with the replaced transaction. -/
def sgMixed : Outcome (List Bool × Bool) := do
  let u ← sgTx 5
  let u' ← sgTx 6
  let c ← TxBoxes.new (u.spend sgSers) (sgBoxes 8) [sgBox 3 8]
  let r ← reduceTx sgReduce sgSers sgState u c
  let t ← signReduced sgWallet sgSers { r with tx := u' } none
  let a ← verifyInput 3 toyCurve sgReduce sgSers sgState t c 0
  let b ← verifyInput 3 toyCurve sgReduce sgSers sgState t c 1
  pure ([a, b], decide (t.txId = u'.txId))

/-- C65 fails for reduced transactions whose unsigned transaction was replaced (the field is public): context variables
come from the reduced inputs while the message comes from the unsigned transaction, so signing succeeds with a transaction
that has neither the id of the unsigned transaction nor a valid proof. -/
theorem C65_violation_replaced : sgMixed = .ok ([false, true], false) := by decide +kernel

/-- C65 fails: with fewer reduced inputs than inputs (again by replacing the public field), signing panics. -/
theorem C65_violation_panic (P : WalletP (ZMod 3) 3) : ∃ (r : ReducedTx (ZMod 3) Empty Byte),
    UnsignedTransaction.new sgSers r.tx.inputs r.tx.dataInputs r.tx.cands = .ok r.tx ∧ r.inputs ≠ [] ∧
      signReduced P sgSers r none = .panic := by
  obtain ⟨u, hu⟩ := sg_tx_ok
  obtain ⟨h1, h2, h3, m, h4, _⟩ := unsigned_new_spec _ hu
  refine ⟨{ tx := u, cost := 0, inputs := [⟨.trivial true, 0, []⟩] }, by rw [h1, h2, h3]; exact hu, by simp, ?_⟩
  unfold signReduced
  simp only [h4, Outcome.bind_ok]
  rw [h1]
  rfl

end Verif
