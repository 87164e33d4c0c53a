import Verif.Model.VerifyApi
import Verif.Model.Address
import Verif.Model.Eval
import Verif.Props.Signing

/-! # C98: checking a P2PK input without a context agrees with the verifier -/

set_option linter.unusedSimpArgs false
set_option linter.unusedVariables false

namespace Verif
open Sigma Spec
variable {G B T : Type} [DecidableEq G]

section
variable {q : Nat} [AddCommGroup G] [Module (ZMod q) G]

/-- Without empty proofs given as "some bytes" the two functions are the same; on those one answers `false`, the other with an error. -/
theorem verifySignature_toBytes (C : Curve G) (sb : SigmaBoolean G) (message : Bytes) (p : ProofBytes) :
    verifySignature q C sb message p.toBytes = .ok true ↔ verifyProof q C sb p message = .ok true := by
  cases p with
  | empty => cases sb <;> simp [verifySignature, verifyProof, ProofBytes.toBytes]
  | some bs =>
    by_cases hb : bs = []
    · subst hb
      cases sb <;> simp [verifySignature, verifyProof, ProofBytes.toBytes, parseSigComputeChallenges]
    · cases sb <;> simp [verifySignature, verifyProof, ProofBytes.toBytes, hb]

/-- C98: `verify_p2pk_input` answers "true" only for a box that an input of the transaction spends, guarded by a constant proposition, which
is "true" or for which that input carries a signature of the bytes of this transaction. -/
theorem C98_sound (C : Curve G) (prop : T → Outcome (SigmaBoolean G)) (E : Sers G B T) (t : Tx G B T) (b : EBox G B T)
    (h : verifyP2pkInput q C prop E t b = .ok true) :
    ∃ message sb, t.bytesToSign E = .ok message ∧ prop b.tree = .ok sb ∧ ∃ inp ∈ t.inputs, inp.boxId = b.boxId ∧
      (sb = .trivial true ∨ (nontrivial sb ∧ ∃ bs, inp.proof.proof = .some bs ∧ verifySignature q C sb message bs = .ok true)) := by
  unfold verifyP2pkInput at h
  cases hm : t.bytesToSign E with
  | err => rw [hm] at h; cases h
  | panic => rw [hm] at h; cases h
  | ok message =>
    rw [hm] at h
    simp only [Outcome.bind_eq_ok, ofOpt_eq_ok] at h
    obtain ⟨inp, h1, sb, h2, h3⟩ := h
    refine ⟨message, sb, rfl, h2, inp, List.mem_of_find?_eq_some h1, by simpa using List.find?_some h1, ?_⟩
    cases sb with
    | trivial v => left; cases v <;> first | rfl | (cases h3)
    | _ =>
      right
      refine ⟨trivial, ?_⟩
      cases hp : inp.proof.proof with
      | empty => rw [hp] at h3; simp [verifySignature, ProofBytes.toBytes] at h3
      | some bs => rw [hp] at h3; exact ⟨bs, rfl, h3⟩

/-- C98: for the first input that spends the box, `verify_p2pk_input` accepts exactly when the verifier accepts the input in its context.
The interpreter is any that reduces a constant proposition to itself. -/
theorem C98_first_partial (C : Curve G) (prop : T → Outcome (SigmaBoolean G)) (reduce : Reduce G B T)
    (hred : ∀ tree ctx sb, prop tree = .ok sb → reduce tree ctx = .ok sb) (E : Sers G B T) (S : StateCtx G) (t : Tx G B T)
    (boxes dataBoxes : List (EBox G B T)) (c : TxBoxes G B T) (hc : TxBoxes.new t.spend boxes dataBoxes = .ok c) (m : Bytes)
    (hm : t.bytesToSign E = .ok m) (i : Nat) (inp : Input G B) (hi : t.inputs[i]? = some inp)
    (hfirst : ∀ (j : Nat) (x : Input G B), j < i → t.inputs[j]? = some x → x.boxId ≠ inp.boxId)
    (b : EBox G B T) (hb : c.get inp.boxId = some b)
    (sb : SigmaBoolean G) (hp : prop b.tree = .ok sb) :
    verifyP2pkInput q C prop E t b = .ok true ↔ verifyInput q C reduce E S t c i = .ok true := by
  obtain ⟨_, _, c3, c4⟩ := TxBoxes.new_spec hc
  obtain ⟨ctx, hctx⟩ := makeContext_ok S (tx := t.spend) (c := c) (i := i) (outs := t.outputs) (ext := inp.proof.extension) rfl
    (by show t.inputs[i]?.map _ = _; rw [hi]; rfl)
    (by show i < (t.inputs.map Input.boxId).length; rw [List.length_map]; exact (List.getElem?_eq_some_iff.1 hi).1) c3 c4
  have hbid : b.boxId = inp.boxId := (TxBoxes.get_spec hb).2
  have hfind : t.inputs.find? (fun x => decide (x.boxId = b.boxId)) = some inp := by
    rw [List.find?_eq_some_iff_getElem]
    obtain ⟨hlt, hget⟩ := List.getElem?_eq_some_iff.1 hi
    refine ⟨by simp [hbid], i, hlt, hget, fun j hj => ?_⟩
    have := hfirst j _ hj (List.getElem?_eq_getElem (by omega))
    rw [hbid]
    simpa using this
  unfold verifyP2pkInput verifyInput
  rw [hm, hi]
  simp only [hfind, ofOpt, Outcome.bind_ok, hp]
  unfold inputProp
  rw [hb]
  simp only [ofOpt, Outcome.bind_ok, hctx, hred _ _ _ hp, Outcome.pure_eq]
  exact verifySignature_toBytes C sb m _

/-- C98: for a transaction that spends no box twice, whose boxes are all guarded by constant propositions, checking all boxes with
`verify_p2pk_input` is the same as verifying all inputs. -/
theorem C98_all_partial (C : Curve G) (prop : T → Outcome (SigmaBoolean G)) (reduce : Reduce G B T)
    (hred : ∀ tree ctx sb, prop tree = .ok sb → reduce tree ctx = .ok sb) (E : Sers G B T) (S : StateCtx G) (t : Tx G B T)
    (boxes dataBoxes : List (EBox G B T)) (c : TxBoxes G B T) (hc : TxBoxes.new t.spend boxes dataBoxes = .ok c) (m : Bytes)
    (hm : t.bytesToSign E = .ok m) (hnd : (t.inputs.map Input.boxId).Nodup)
    (hp : ∀ x ∈ t.inputs, ∀ b, c.get x.boxId = some b → ∃ sb, prop b.tree = .ok sb) :
    (∀ x ∈ t.inputs, ∃ b, c.get x.boxId = some b ∧ verifyP2pkInput q C prop E t b = .ok true) ↔
      ∀ i, i < t.inputs.length → verifyInput q C reduce E S t c i = .ok true := by
  obtain ⟨_, _, c3, _⟩ := TxBoxes.new_spec hc
  have hf : ∀ (i : Nat) (inp : Input G B), t.inputs[i]? = some inp → ∀ (j : Nat) (x : Input G B), j < i →
      t.inputs[j]? = some x → x.boxId ≠ inp.boxId := by
    intro i inp hi j x hj hx he
    obtain ⟨h1, h2⟩ := List.getElem?_eq_some_iff.1 hi
    obtain ⟨h3, h4⟩ := List.getElem?_eq_some_iff.1 hx
    have := (List.nodup_iff_injective_getElem.1 hnd) (a₁ := ⟨i, by simpa using h1⟩) (a₂ := ⟨j, by simpa using h3⟩)
      (by simp [h2, h4, he])
    simp only [Fin.mk.injEq] at this
    omega
  constructor
  · intro h i hi
    have hget : t.inputs[i]? = some t.inputs[i] := List.getElem?_eq_getElem hi
    obtain ⟨b, hb, hv⟩ := h _ (List.getElem_mem hi)
    obtain ⟨sb, hsb⟩ := hp _ (List.getElem_mem hi) b hb
    exact (C98_first_partial C prop reduce hred E S t boxes dataBoxes c hc m hm i _ hget (hf i _ hget) b hb sb hsb).1 hv
  · intro h x hx
    obtain ⟨i, hi, rfl⟩ := List.getElem_of_mem hx
    have hget : t.inputs[i]? = some t.inputs[i] := List.getElem?_eq_getElem hi
    obtain ⟨b, hb⟩ := c3 t.inputs[i].boxId (by show _ ∈ t.inputs.map Input.boxId; exact List.mem_map_of_mem hx)
    obtain ⟨sb, hsb⟩ := hp _ hx b hb
    exact ⟨b, hb, (C98_first_partial C prop reduce hred E S t boxes dataBoxes c hc m hm i _ hget (hf i _ hget) b hb sb hsb).2 (h i hi)⟩

/-- C98: if the verifier accepts all inputs of a transaction, whatever boxes it spends and however often, `verify_p2pk_input` accepts every
box it spends that is guarded by a constant proposition. -/
theorem C98_complete (C : Curve G) (prop : T → Outcome (SigmaBoolean G)) (reduce : Reduce G B T)
    (hred : ∀ tree ctx sb, prop tree = .ok sb → reduce tree ctx = .ok sb) (E : Sers G B T) (S : StateCtx G) (t : Tx G B T)
    (boxes dataBoxes : List (EBox G B T)) (c : TxBoxes G B T) (hc : TxBoxes.new t.spend boxes dataBoxes = .ok c)
    (hv : ∀ i, i < t.inputs.length → verifyInput q C reduce E S t c i = .ok true)
    (x : Input G B) (hx : x ∈ t.inputs) (b : EBox G B T) (hb : c.get x.boxId = some b) (sb : SigmaBoolean G) (hp : prop b.tree = .ok sb) :
    verifyP2pkInput q C prop E t b = .ok true := by
  -- the first input that spends the box
  have hex : (t.inputs.find? fun y => decide (y.boxId = x.boxId)).isSome := by
    rw [List.find?_isSome]; exact ⟨x, hx, by simp⟩
  obtain ⟨y, hy⟩ := Option.isSome_iff_exists.1 hex
  obtain ⟨hyb, i, hi, hget, hbefore⟩ := List.find?_eq_some_iff_getElem.1 hy
  have hyb' : y.boxId = x.boxId := by simpa using hyb
  have hvi := hv i hi
  obtain ⟨m, hm⟩ : ∃ m, t.bytesToSign E = .ok m := by
    unfold verifyInput at hvi
    obtain ⟨_, _, h2⟩ := Outcome.bind_eq_ok.1 hvi
    obtain ⟨m, h3, _⟩ := Outcome.bind_eq_ok.1 h2
    exact ⟨m, h3⟩
  refine (C98_first_partial C prop reduce hred E S t boxes dataBoxes c hc m hm i y (List.getElem?_eq_some_iff.2 ⟨hi, hget⟩) ?_ b
    (by rw [hyb']; exact hb) sb hp).2 hvi
  intro j z hj hz
  obtain ⟨hjl, hjg⟩ := List.getElem?_eq_some_iff.1 hz
  have := hbefore j hj
  rw [hjg] at this
  rw [hyb']
  simpa using this

/-- C98: a box that no input spends, or that is not guarded by a constant proposition, is answered with an error, never
with "true" or "false". -/
theorem C98_error (C : Curve G) (prop : T → Outcome (SigmaBoolean G)) (E : Sers G B T) (t : Tx G B T) (m : Bytes)
    (hm : t.bytesToSign E = .ok m) (b : EBox G B T) (h : (∀ x ∈ t.inputs, x.boxId ≠ b.boxId) ∨ prop b.tree = .err) :
    verifyP2pkInput q C prop E t b = .err := by
  unfold verifyP2pkInput
  rw [hm]
  simp only
  rcases h with h | h
  · have : t.inputs.find? (fun x => decide (x.boxId = b.boxId)) = none := by
      rw [List.find?_eq_none]; intro x hx; simpa using h x hx
    rw [this]; rfl
  · rw [h]
    cases t.inputs.find? (fun x => decide (x.boxId = b.boxId)) <;> rfl

/-- C98: for a transaction made by its constructor the answer is `verify_signature` on the proof of the first input that spends the box,
over bytes whose hash is the transaction id, or an error; it panics only if `verify_signature` or reading the script does. -/
theorem C98_made (C : Curve G) (prop : T → Outcome (SigmaBoolean G)) (E : Sers G B T) (ins : List (Input G B))
    (data : Option (List Bytes)) (cands : List (BoxCand G B T)) (t : Tx G B T) (h : Tx.new E ins data cands = .ok t) (b : EBox G B T) :
    ∃ m, E.H m = t.txId ∧ ((∀ x ∈ ins, x.boxId ≠ b.boxId) → verifyP2pkInput q C prop E t b = .err) ∧
      ∀ (i : Nat) (inp : Input G B), ins[i]? = some inp → inp.boxId = b.boxId → (∀ (j : Nat) (x : Input G B), j < i →
         ins[j]? = some x → x.boxId ≠ b.boxId) →
        verifyP2pkInput q C prop E t b = prop b.tree >>= fun sb => verifySignature q C sb m inp.proof.proof.toBytes := by
  obtain ⟨h1, _, _, h4, _⟩ := Tx.new_spec E h
  unfold Tx.calcId at h4
  obtain ⟨m, h5, h6⟩ := Outcome.bind_eq_ok.1 h4
  refine ⟨m, by simpa using h6, fun hn => C98_error C prop E t m h5 b (.inl (by rw [h1]; exact hn)), fun i inp hi he hfirst => ?_⟩
  have hfind : t.inputs.find? (fun x => decide (x.boxId = b.boxId)) = some inp := by
    rw [h1, List.find?_eq_some_iff_getElem]
    obtain ⟨hlt, hget⟩ := List.getElem?_eq_some_iff.1 hi
    refine ⟨by simp [he], i, hlt, hget, fun j hj => ?_⟩
    simpa using hfirst j _ hj (List.getElem?_eq_getElem (by omega))
  unfold verifyP2pkInput
  rw [h5]
  simp only [hfind, ofOpt, Outcome.bind_ok]

end

/-- C98: the interpreter is such: on a constant proposition it gives the proposition, in any context and environment. -/
theorem C98_interpreter [DecidableEq B] [DecidableEq (Value G B)] (W : World G B T) (K : EvalCtx G B) (n : Nat) (e : Expr G B)
    (sb : SigmaBoolean G) (env : FMap (BitVec 32) (Value G B)) (h : extractSigmaBoolean e = .ok sb) :
    reduceToCrypto W K (n + 1) e env = .ok sb := by
  obtain ⟨c, rfl, hc⟩ : ∃ c, e = .const c ∧ c.v = .sigmaProp sb := by
    cases e with
    | const c =>
      refine ⟨c, rfl, ?_⟩
      cases hv : c.v with
      | sigmaProp s => simp only [extractSigmaBoolean, hv] at h; cases h; rfl
      | _ => simp only [extractSigmaBoolean, hv] at h; cases h
    | _ => cases h
  have h1 : reduceOnce W K (n + 1) (.const c) env = .ok (some sb) := by
    have h0 : eval W { K with limit := none } (n + 1) (.const c) { env := env, cost := 0 } =
        .ok (Value.ofLiteral c.v, _) := rfl
    unfold reduceOnce
    rw [h0, hc]; rfl
  have h2 : (Expr.const c : Expr G B).prettyPrint W.mode = .ok (.const c) := rfl
  unfold reduceToCrypto
  rw [h1]
  cases sb with
  | trivial b => cases b <;> simp only [h2]
  | _ => rfl

/-! ## Cases -/

example : extractSigmaBoolean (.const ⟨.sigmaProp, .sigmaProp toyProp⟩ : Expr (ZMod 3) Empty) = .ok toyProp ∧
    extractSigmaBoolean (.const ⟨.bool, .bool true⟩ : Expr (ZMod 3) Empty) = .err := ⟨rfl, rfl⟩

/-- Tree 7 is the constant of the interpreter `sgReduce`, the other trees are no constants. -/
def vaProp : Byte → Outcome (SigmaBoolean (ZMod 3)) := fun tree => if tree = 7 then .ok toyProp else .err

theorem vaProp_reduce (tree : Byte) (ctx : ScriptCtx (ZMod 3) Empty Byte) (sb : SigmaBoolean (ZMod 3)) (h : vaProp tree = .ok sb) :
    sgReduce tree ctx = .ok sb := by
  unfold vaProp at h
  unfold sgReduce
  split at h
  · rename_i ht; rw [if_pos ht]; exact h
  · cases h

/-- Sign a transaction that spends the given boxes, replace the proofs, then ask `verify_p2pk_input` about the given box and verify both
inputs. -/
def vaRun (ids : Byte × Byte) (f : List (Input (ZMod 3) Empty) → List (Input (ZMod 3) Empty)) (b : EBox (ZMod 3) Empty Byte) :
    Outcome (Outcome Bool × List (Outcome Bool)) := do
  let u ← UnsignedTransaction.new sgSers [⟨tid ids.1, [(0, intConst 5)]⟩, ⟨tid ids.2, []⟩] (some [tid 3]) sgCands
  let c ← TxBoxes.new (u.spend sgSers) (sgBoxes 7) [sgBox 3 8]
  let t ← signTransaction sgReduce sgWallet sgSers sgState u c none
  let t' ← Tx.new sgSers (f t.inputs) t.dataInputs t.cands
  pure (verifyP2pkInput 3 toyCurve vaProp sgSers t' b,
    [verifyInput 3 toyCurve sgReduce sgSers sgState t' c 0, verifyInput 3 toyCurve sgReduce sgSers sgState t' c 1])

/-- Drop the proof of the second input. -/
def dropSecond : List (Input (ZMod 3) Empty) → List (Input (ZMod 3) Empty)
  | [a, b] => [a, { b with proof := { b.proof with proof := .empty } }]
  | l => l

/-- Give the first input a proof of zero bytes. -/
def zeroFirst : List (Input (ZMod 3) Empty) → List (Input (ZMod 3) Empty)
  | a :: l => { a with proof := { a.proof with proof := .some [] } } :: l
  | l => l

/-- Both boxes of a signed transaction are accepted; without its proof the second is not; a box with another script and a box that is
not spent give an error. -/
example : vaRun (9, 8) id (sgBox 9 7) = .ok (.ok true, [.ok true, .ok true]) ∧
    vaRun (9, 8) id (sgBox 8 7) = .ok (.ok true, [.ok true, .ok true]) ∧
    vaRun (9, 8) dropSecond (sgBox 8 7) = .ok (.ok false, [.ok true, .ok false]) ∧
    vaRun (9, 8) id (sgBox 9 8) = .ok (.err, [.ok true, .ok true]) ∧
    vaRun (9, 8) id (sgBox 1 7) = .ok (.err, [.ok true, .ok true]) := by decide +kernel

/-- Violation of C98: of a transaction with two inputs that spend the same box, only the first input is looked at; the second may carry no
proof at all, and no call of `verify_p2pk_input` tells. -/
theorem C98_duplicate_input_violates : vaRun (9, 9) dropSecond (sgBox 9 7) = .ok (.ok true, [.ok true, .ok false]) := by decide +kernel

/-- Violation of C98: a proof that is present but has no bytes (`ProofBytes::Some(vec![])`, which only code can make) is
answered with "false" by the one function and with an error by the other. -/
theorem C98_zero_bytes_violates : vaRun (9, 8) zeroFirst (sgBox 9 7) = .ok (.ok false, [.err, .ok true]) := by decide +kernel

end Verif
