import Verif.Model.Transaction
import Verif.Model.Header
import Verif.Model.MultiSig

/-!
# Signing and reducing transactions

Source: `ergo-lib/src/wallet/{signing,tx_context}.rs`, `ergo-lib/src/chain/transaction/reduced.rs`,
`ergo-lib/src/wallet/multi_sig.rs:237-301`, `ergotree-interpreter/src/sigma_protocol/{prover,verifier}.rs`,
`ergotree-interpreter/src/eval/context.rs`.

Script reduction (`tree.proposition()` followed by `reduce_to_crypto(&expr, &Env::empty(), ctx)`) is a parameter
`reduce`: a function of the tree and the context.  The interpreter itself is modelled in `Model/Eval.lean`, over boxes of
a type `B` that the trees of `B` may not contain; here the trees of a box are evaluated over boxes of the same type, so the
reduction stays abstract and every theorem holds for each such function.
Boxes are shared through `Arc`; here they are values.  Error payloads are dropped.
-/

namespace Verif
open Sigma

/-- `ErgoStateContext`, `ergo_state_context.rs:9-15`; `[Header; 10]` is a list. -/
structure StateCtx (G : Type) where
  preHeader : PreHeader G
  headers : List (Header G)

/-- `Context`, `eval/context.rs:20-40`. -/
structure ScriptCtx (G B T : Type) where
  height : BitVec 32
  selfBox : EBox G B T
  outputs : List (EBox G B T)
  dataInputs : Option (List (EBox G B T))
  inputs : List (EBox G B T)
  preHeader : PreHeader G
  extension : Extension G B
  headers : List (Header G)

/-- The trait `ErgoTransaction`, `signing.rs:47-56`, as the record of its four methods. -/
structure SpendTx (G B T : Type) where
  inputIds : List Bytes
  dataInputs : Option (List Bytes)
  outputs : Outcome (List (EBox G B T))
  extension : Nat → Option (Extension G B)

section
variable {G B T : Type} [DecidableEq G]

/-- `impl ErgoTransaction for UnsignedTransaction`, `signing.rs:58-81`; the boxes are computed with the stored id and the
result is unwrapped. -/
def UnsignedTransaction.spend (E : Sers G B T) (u : UnsignedTransaction G B T) : SpendTx G B T where
  inputIds := u.inputs.map UnsignedInput.boxId
  dataInputs := u.dataInputs
  outputs := match outputsFrom E u.txId 0 u.cands with
    | .ok l => .ok l
    | _ => .panic
  extension i := u.inputs[i]?.map UnsignedInput.extension

/-- `impl ErgoTransaction for Transaction`, `signing.rs:83-101`. -/
def Tx.spend (t : Tx G B T) : SpendTx G B T where
  inputIds := t.inputs.map Input.boxId
  dataInputs := t.dataInputs
  outputs := .ok t.outputs
  extension i := t.inputs[i]?.map fun x => x.proof.extension

/-- `TransactionContext` without the transaction, `tx_context.rs:14-21`. -/
structure TxBoxes (G B T : Type) where
  boxes : List (EBox G B T)
  dataBoxes : Option (List (EBox G B T))

/-- `TransactionContext::new`, `tx_context.rs:25-69`. -/
def TxBoxes.new (tx : SpendTx G B T) (boxes dataBoxes : List (EBox G B T)) : Outcome (TxBoxes G B T) := do
  let bs ← ofOpt (ioVec boxes)
  if !(tx.inputIds.all fun id => bs.any fun b => decide (id = b.boxId)) then .err
  else do
    let ds ← ofOpt (optIoVec dataBoxes)
    match tx.dataInputs, ds with
    | none, _ => pure { boxes := bs, dataBoxes := ds }
    | some ids, some l =>
      if ids.all fun id => l.any fun b => decide (id = b.boxId) then pure { boxes := bs, dataBoxes := ds } else .err
    | some _, none => .err

/-- `get_input_box`, `tx_context.rs:72-77`: the first box with the id. -/
def TxBoxes.get (c : TxBoxes G B T) (id : Bytes) : Option (EBox G B T) := c.boxes.find? fun b => decide (b.boxId = id)

/-- `data_boxes.iter().find(|b| di.box_id == b.box_id())`, `signing.rs:124-133`. -/
def TxBoxes.getData (c : TxBoxes G B T) (id : Bytes) : Option (EBox G B T) :=
  match c.dataBoxes with
  | none => none
  | some l => l.find? fun b => decide (id = b.boxId)

/-- `make_context`, `signing.rs:104-163`. -/
def makeContext (S : StateCtx G) (tx : SpendTx G B T) (c : TxBoxes G B T) (i : Nat) : Outcome (ScriptCtx G B T) := do
  let id ← ofOpt tx.inputIds[i]?
  let self ← ofOpt (c.get id)
  let outputs ← tx.outputs
  let dataInputs ← (match tx.dataInputs with
    | some ids => do
      let l ← ofOpt (ids.mapM c.getData)
      pure (some l)
    | none => pure none : Outcome (Option (List (EBox G B T))))
  let inputs ← ofOpt (tx.inputIds.mapM c.get)
  let ext ← ofOpt (tx.extension i)
  pure { height := S.preHeader.height, selfBox := self, outputs := outputs, dataInputs := dataInputs, inputs := inputs,
         preHeader := S.preHeader, extension := ext, headers := S.headers }

/-- Script reduction: `tree.proposition()` and `reduce_to_crypto(&expr, &Env::empty(), ctx)`, `prover.rs:149-151`,
`verifier.rs:71-72`. -/
abbrev Reduce (G B T : Type) := T → ScriptCtx G B T → Outcome (SigmaBoolean G)

/-- The proposition that input `i` asks a proof for: the box is looked up, the context made, the script reduced.  Common
part of `sign_tx_input` (`signing.rs:255-258`) with `Prover::prove` (`prover.rs:149-151`), of `reduce_tx`
(`reduced.rs:78-89`), `generate_commitments` (`multi_sig.rs:250-261`) and `extract_hints` (`multi_sig.rs:278-289`). -/
def inputProp (reduce : Reduce G B T) (S : StateCtx G) (tx : SpendTx G B T) (c : TxBoxes G B T) (i : Nat) (id : Bytes) :
    Outcome (SigmaBoolean G × Extension G B) := do
  let b ← ofOpt (c.get id)
  let ctx ← makeContext S tx c i
  let sb ← reduce b.tree ctx
  pure (sb, ctx.extension)

section
variable {q : Nat} [AddCommGroup G] [Module (ZMod q) G]

/-- `Wallet`, `wallet.rs:44-46`: the secrets of its prover; `rnd i` is the randomness drawn while signing input `i`. -/
structure WalletP (G : Type) (q : Nat) where
  curve : Curve G
  secrets : List (Secret G q)
  rnd : Nat → Rnd q

/-- The hints for an input, `signing.rs:205-208, 259-262`. -/
def hintsFor (hints : Option (TxHints G q)) (i : Nat) : List (Hint G q) :=
  match hints with
  | some b => b.allFor i
  | none => []

/-- `Prover::generate_proof` for input `i`, `prover.rs:166-185`; the bytes of `serialize_sig` and `ProofBytes::Empty`. -/
def WalletP.proof (P : WalletP G q) (hints : Option (TxHints G q)) (i : Nat) (sb : SigmaBoolean G) (message : Bytes) :
    Outcome ProofBytes := do
  let bs ← generateProof { curve := P.curve, secrets := P.secrets, hints := hintsFor hints i, rnd := P.rnd i } sb message
  pure (match sb with
    | .trivial _ => .empty
    | _ => .some bs)

/-- `sign_tx_input`, `signing.rs:242-273`, with `Prover::prove`, `prover.rs:141-163`. -/
def signTxInput (reduce : Reduce G B T) (P : WalletP G q) (E : Sers G B T) (S : StateCtx G)
    (u : UnsignedTransaction G B T) (c : TxBoxes G B T) (hints : Option (TxHints G q)) (i : Nat) (message : Bytes) :
    Outcome (Input G B) := do
  let inp ← ofOpt u.inputs[i]?
  let p ← inputProp reduce S (u.spend E) c i inp.boxId
  let pr ← P.proof hints i p.1 message
  pure ⟨inp.boxId, ⟨pr, p.2⟩⟩

/-- `.enumerated().try_mapped(..)` of `sign_transaction`, `signing.rs:174-183`, from index `i` on, `n` inputs. -/
def signInputs (reduce : Reduce G B T) (P : WalletP G q) (E : Sers G B T) (S : StateCtx G)
    (u : UnsignedTransaction G B T) (c : TxBoxes G B T) (hints : Option (TxHints G q)) (message : Bytes) :
    Nat → Nat → Outcome (List (Input G B))
  | _, 0 => .ok []
  | i, n + 1 => do
    let x ← signTxInput reduce P E S u c hints i message
    let l ← signInputs reduce P E S u c hints message (i + 1) n
    pure (x :: l)

/-- `sign_transaction`, `signing.rs:166-189`. -/
def signTransaction (reduce : Reduce G B T) (P : WalletP G q) (E : Sers G B T) (S : StateCtx G)
    (u : UnsignedTransaction G B T) (c : TxBoxes G B T) (hints : Option (TxHints G q)) : Outcome (Tx G B T) := do
  let message ← u.bytesToSign E
  let inputs ← signInputs reduce P E S u c hints message 0 u.inputs.length
  Tx.new E inputs u.dataInputs u.cands

/-- `Wallet::sign_tx_input`, `wallet.rs:158-175`. -/
def walletSignInput (reduce : Reduce G B T) (P : WalletP G q) (E : Sers G B T) (S : StateCtx G)
    (u : UnsignedTransaction G B T) (c : TxBoxes G B T) (hints : Option (TxHints G q)) (i : Nat) :
    Outcome (Input G B) := do
  let message ← u.bytesToSign E
  signTxInput reduce P E S u c hints i message

/-- `ReducedInput`, `reduced.rs:32-39`. -/
structure ReducedInput (G B : Type) where
  prop : SigmaBoolean G
  cost : BitVec 64
  extension : Extension G B

/-- `ReducedTransaction`, `reduced.rs:51-58`. -/
structure ReducedTx (G B T : Type) where
  tx : UnsignedTransaction G B T
  cost : BitVec 32
  inputs : List (ReducedInput G B)

/-- The loop of `reduce_tx`, `reduced.rs:73-95`; `reduce_to_crypto` reports the cost 0 (`eval.rs:142-157`). -/
def reduceInputs (reduce : Reduce G B T) (S : StateCtx G) (tx : SpendTx G B T) (c : TxBoxes G B T) :
    Nat → List (UnsignedInput G B) → Outcome (List (ReducedInput G B))
  | _, [] => .ok []
  | i, inp :: l => do
    let p ← inputProp reduce S tx c i inp.boxId
    let rest ← reduceInputs reduce S tx c (i + 1) l
    pure ({ prop := p.1, cost := 0, extension := inp.extension } :: rest)

/-- `reduce_tx`, `reduced.rs:68-101`. -/
def reduceTx (reduce : Reduce G B T) (E : Sers G B T) (S : StateCtx G) (u : UnsignedTransaction G B T)
    (c : TxBoxes G B T) : Outcome (ReducedTx G B T) := do
  let l ← reduceInputs reduce S (u.spend E) c 0 u.inputs
  pure { tx := u, cost := 0, inputs := l }

/-- The loop of `sign_reduced_transaction`, `signing.rs:199-221`; a missing reduced input is unwrapped. -/
def signReducedInputs (P : WalletP G q) (hints : Option (TxHints G q)) (message : Bytes) (red : List (ReducedInput G B)) :
    Nat → List (UnsignedInput G B) → Outcome (List (Input G B))
  | _, [] => .ok []
  | i, inp :: l =>
    match red[i]? with
    | none => .panic
    | some r => do
      let pr ← P.proof hints i r.prop message
      let rest ← signReducedInputs P hints message red (i + 1) l
      pure (⟨inp.boxId, ⟨pr, r.extension⟩⟩ :: rest)

/-- `sign_reduced_transaction`, `signing.rs:192-227`. -/
def signReduced (P : WalletP G q) (E : Sers G B T) (r : ReducedTx G B T) (hints : Option (TxHints G q)) :
    Outcome (Tx G B T) := do
  let message ← r.tx.bytesToSign E
  let inputs ← signReducedInputs P hints message r.inputs 0 r.tx.inputs
  Tx.new E inputs r.tx.dataInputs r.tx.cands

/-- The last step of `Verifier::verify`, `verifier.rs:72-85`, on the reduced proposition. -/
def verifyProof (q : Nat) [AddCommGroup G] [Module (ZMod q) G] (C : Curve G) (sb : SigmaBoolean G) (proof : ProofBytes)
    (message : Bytes) : Outcome Bool :=
  match sb with
  | .trivial b => .ok b
  | sb =>
    match proof with
    | .empty => .ok false
    | .some bs => do
      let t ← parseSigComputeChallenges (q := q) sb bs
      checkCommitments C t message

/-- `Verifier::verify` on input `i` of a signed transaction: tree and context of its box, the proof it carries and the
bytes to sign of the transaction, `verifier.rs:62-91` (the arguments as in `verify_tx_proofs`, `signing.rs:313-334`). -/
def verifyInput (q : Nat) [AddCommGroup G] [Module (ZMod q) G] (C : Curve G) (reduce : Reduce G B T) (E : Sers G B T)
    (S : StateCtx G) (t : Tx G B T) (c : TxBoxes G B T) (i : Nat) : Outcome Bool := do
  let inp ← ofOpt t.inputs[i]?
  let message ← t.bytesToSign E
  let p ← inputProp reduce S t.spend c i inp.boxId
  verifyProof q C p.1 inp.proof.proof message

/-- The loop of `generate_commitments`, `multi_sig.rs:249-265`. -/
def commitInputs (reduce : Reduce G B T) (C : Curve G) (r : Nat → Position → ZMod q) (S : StateCtx G) (tx : SpendTx G B T)
    (c : TxBoxes G B T) (keys : List (SigmaBoolean G)) : Nat → List Bytes → TxHints G q → Outcome (TxHints G q)
  | _, [], b => .ok b
  | i, id :: l, b => do
    let p ← inputProp reduce S tx c i id
    commitInputs reduce C r S tx c keys (i + 1) l (b.addFor i (generateCommitmentsFor C (r i) p.1 keys))

/-- `multi_sig::generate_commitments`, `multi_sig.rs:242-267`. -/
def commitTx (reduce : Reduce G B T) (C : Curve G) (r : Nat → Position → ZMod q) (E : Sers G B T) (S : StateCtx G)
    (u : UnsignedTransaction G B T) (c : TxBoxes G B T) (keys : List (SigmaBoolean G)) : Outcome (TxHints G q) :=
  commitInputs reduce C r S (u.spend E) c keys 0 (u.inputs.map UnsignedInput.boxId) TxHints.empty

/-- `Wallet::generate_commitments_for_reduced_transaction`, `wallet.rs:129-146`. -/
def commitReduced (C : Curve G) (r : Nat → Position → ZMod q) (red : ReducedTx G B T) (keys : List (SigmaBoolean G)) :
    TxHints G q := generateCommitments C r keys (red.inputs.map ReducedInput.prop) 0 TxHints.empty

/-- The loop of `extract_hints`, `multi_sig.rs:277-298`. -/
def extractInputs (reduce : Reduce G B T) (C : Curve G) (S : StateCtx G) (tx : SpendTx G B T) (c : TxBoxes G B T)
    (real sim : List (SigmaBoolean G)) : Nat → List (Input G B) → TxHints G q → Outcome (TxHints G q)
  | _, [], b => .ok b
  | i, inp :: l, b => do
    let p ← inputProp reduce S tx c i inp.boxId
    let hs ← bagForMultiSig C p.1 real sim inp.proof.proof.toBytes
    extractInputs reduce C S tx c real sim (i + 1) l (b.addFor i hs)

/-- `multi_sig::extract_hints`, `multi_sig.rs:270-301`. -/
def extractTx (reduce : Reduce G B T) (C : Curve G) (S : StateCtx G) (t : Tx G B T) (c : TxBoxes G B T)
    (real sim : List (SigmaBoolean G)) : Outcome (TxHints G q) :=
  extractInputs reduce C S t.spend c real sim 0 t.inputs TxHints.empty

end

namespace ReducedTx

/-- One reduced input in `sigma_serialize`, `reduced.rs:108-112`. -/
def serInput (pc : PointCodec G) (r : ReducedInput G B) : Bytes := SigmaBoolean.ser pc r.prop ++ putU64 r.cost

/-- `ReducedTransaction::sigma_serialize`, `reduced.rs:104-115`. -/
def ser (E : Sers G B T) (r : ReducedTx G B T) : Outcome Bytes := do
  let msg ← r.tx.bytesToSign E
  let n ← putCount32 msg.length
  pure (n ++ msg ++ r.inputs.flatMap (serInput E.pc) ++ putU32 r.cost)

/-- One pair of reduced and unsigned input in `sigma_parse`, `reduced.rs:124-136`. -/
def parseInput (E : Sers G B T) (inp : Input G B) : Parser (ReducedInput G B × UnsignedInput G B) := do
  let sb ← SigmaBoolean.parse E.pc
  let cost ← getU64
  pure ({ prop := sb, cost := cost, extension := inp.proof.extension },
        { boxId := inp.boxId, extension := inp.proof.extension })

/-- `tx.inputs.try_mapped(..)`, `reduced.rs:122-137`. -/
def parseInputs (E : Sers G B T) : List (Input G B) → Parser (List (ReducedInput G B × UnsignedInput G B))
  | [] => pure []
  | inp :: l => do
    let p ← parseInput E inp
    let rest ← parseInputs E l
    pure (p :: rest)

/-- `ReducedTransaction::sigma_parse`, `reduced.rs:117-148`; `Transaction::sigma_parse_bytes` ignores bytes left over. -/
def parse (E : Sers G B T) : Parser (ReducedTx G B T) := do
  let n ← getU32
  let buf ← readExact n.toNat
  match Tx.parse E buf with
  | none => Parser.fail
  | some (t, _) => do
    let ps ← parseInputs E t.inputs
    let u ← Parser.ofOption (UnsignedTransaction.new E (ps.map Prod.snd) t.dataInputs t.cands).toOption
    let cost ← getU32
    pure { tx := u, cost := cost, inputs := ps.map Prod.fst }

end ReducedTx
end
end Verif
