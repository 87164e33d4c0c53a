import Verif.Model.Box
import Verif.Model.Extension

/-!
# Transactions: byte form and id

Source: `ergo-lib/src/chain/transaction.rs`, `transaction/{input,data_input,unsigned}.rs`.
`TxIoVec<T>` (`BoundedVec<T, 1, 65535>`) is a list; the bound is checked where Rust checks it (`new_from_vec`).
-/

namespace Verif

/-- `Input`, `input.rs:85-98`. -/
structure Input (G B : Type) where
  boxId : Bytes
  proof : ProverResult G B

/-- `UnsignedInput`, `input.rs:28-39`. -/
structure UnsignedInput (G B : Type) where
  boxId : Bytes
  extension : Extension G B

/-- `Transaction`, `transaction.rs:70-87`. -/
structure Tx (G B T : Type) where
  txId : Bytes
  inputs : List (Input G B)
  dataInputs : Option (List Bytes)
  cands : List (BoxCand G B T)
  outputs : List (EBox G B T)

/-- `UnsignedTransaction`, `unsigned.rs:29-39`. -/
structure UnsignedTransaction (G B T : Type) where
  txId : Bytes
  inputs : List (UnsignedInput G B)
  dataInputs : Option (List Bytes)
  cands : List (BoxCand G B T)

section
variable {G B T : Type}

/-- `UnsignedInput::input_to_sign`, `input.rs:64-72`. -/
def UnsignedInput.toSign (i : UnsignedInput G B) : Input G B := ⟨i.boxId, ⟨.empty, i.extension⟩⟩

/-- `Input::from_unsigned_input`, `input.rs:110-118`. -/
def Input.ofUnsigned (i : UnsignedInput G B) (p : ProofBytes) : Input G B := ⟨i.boxId, ⟨p, i.extension⟩⟩

/-- `Input::input_to_sign`, `input.rs:121-129`. -/
def Input.toSign (i : Input G B) : Input G B := ⟨i.boxId, ⟨.empty, i.proof.extension⟩⟩

/-- `Input::sigma_serialize`, `input.rs:133-137`. -/
def Input.ser [DecidableEq G] (E : Sers G B T) (i : Input G B) : Outcome Bytes := do
  let p ← i.proof.ser E
  pure (i.boxId ++ p)

/-- `Input::sigma_parse`, `input.rs:138-145`. -/
def Input.parse (E : Sers G B T) : Parser (Input G B) := do
  let id ← readExact 32
  let p ← ProverResult.parse E
  pure ⟨id, p⟩

/-- `distinct_token_ids`, `transaction.rs:228-243`. -/
def distinctTokenIds (cands : List (BoxCand G B T)) : IdSet :=
  IdSet.ofList (cands.flatMap fun c => (c.tokens.getD []).map Prod.fst)

/-- `MAX_OUTPUTS_COUNT`, `transaction.rs:91`. -/
def maxOutputsCount : Nat := 65535

/-- `DataInput::sigma_serialize`, `data_input.rs:29-32`. -/
def serDataInput (d : Bytes) : Outcome Bytes := .ok d

/-- The data inputs part of `sigma_serialize`, `transaction.rs:251-256`. -/
def serDataInputs : Option (List Bytes) → Outcome Bytes
  | some ds => do
    let n ← putCount16 ds.length
    let b ← serMany serDataInput ds
    pure (n ++ b)
  | none => .ok (putU16 0)

/-- The body of `Transaction::sigma_serialize`, `transaction.rs:247-274`; it does not look at the id and the full
outputs. -/
def serTxParts [DecidableEq G] (E : Sers G B T) (inputs : List (Input G B)) (dataInputs : Option (List Bytes))
    (cands : List (BoxCand G B T)) : Outcome Bytes := do
  let ni ← putCount16 inputs.length
  let bi ← serMany (Input.ser E) inputs
  let bd ← serDataInputs dataInputs
  let ids := distinctTokenIds cands
  let nt ← putCount32 ids.length
  let bt ← serMany Outcome.ok ids
  let no ← putCount16 cands.length
  let bo ← serMany (BoxCand.serWith E (some ids)) cands
  pure (ni ++ bi ++ bd ++ nt ++ bt ++ no ++ bo)

/-- `Transaction::sigma_serialize`, `transaction.rs:247-274`. -/
def Tx.ser [DecidableEq G] (E : Sers G B T) (t : Tx G B T) : Outcome Bytes :=
  serTxParts E t.inputs t.dataInputs t.cands

/-- `bytes_to_sign`, `transaction.rs:175-182`. -/
def Tx.bytesToSign [DecidableEq G] (E : Sers G B T) (t : Tx G B T) : Outcome Bytes :=
  Tx.ser E { t with inputs := t.inputs.map Input.toSign }

/-- `calc_tx_id`, `transaction.rs:169-172`. -/
def Tx.calcId [DecidableEq G] (E : Sers G B T) (t : Tx G B T) : Outcome Bytes := do
  let b ← t.bytesToSign E
  pure (E.H b)

/-- `.enumerated().try_mapped_ref(|(idx, bc)| ErgoBox::from_box_candidate(bc, tx_id, *idx as u16))`,
`transaction.rs:117-123, 132-134`, from index `i` on. -/
def outputsFrom [DecidableEq G] (E : Sers G B T) (txId : Bytes) : Nat → List (BoxCand G B T) →
    Outcome (List (EBox G B T))
  | _, [] => .ok []
  | i, c :: l => do
    let b ← EBox.ofCand E c txId (BitVec.ofNat 16 i)
    let bs ← outputsFrom E txId (i + 1) l
    pure (b :: bs)

/-- `Transaction::new`, `transaction.rs:112-140`. -/
def Tx.new [DecidableEq G] (E : Sers G B T) (inputs : List (Input G B)) (dataInputs : Option (List Bytes))
    (cands : List (BoxCand G B T)) : Outcome (Tx G B T) := do
  let zero : Bytes := List.replicate 32 0
  let outs0 ← outputsFrom E zero 0 cands
  let t0 : Tx G B T := { txId := zero, inputs := inputs, dataInputs := dataInputs, cands := cands, outputs := outs0 }
  let id ← t0.calcId E
  let outs ← outputsFrom E id 0 cands
  pure { t0 with txId := id, outputs := outs }

/-- `BoundedVec::try_from` for `TxIoVec`, `ergo-lib/src/chain/transaction.rs:74-86`. -/
def ioVec {α : Type} (l : List α) : Option (List α) := if 1 ≤ l.length ∧ l.length ≤ 65535 then some l else none

/-- `BoundedVec::opt_empty_vec` for `TxIoVec`, `ergo-lib/src/chain/transaction.rs:103`. -/
def optIoVec {α : Type} (l : List α) : Option (Option (List α)) :=
  if l.isEmpty then some none else (ioVec l).map some

/-- `Transaction::new_from_vec`, `transaction.rs:94-109`. -/
def Tx.newFromVec [DecidableEq G] (E : Sers G B T) (inputs : List (Input G B)) (dataInputs : List Bytes)
    (cands : List (BoxCand G B T)) : Outcome (Tx G B T) := do
  let i ← ofOpt (ioVec inputs)
  let d ← ofOpt (optIoVec dataInputs)
  let c ← ofOpt (ioVec cands)
  Tx.new E i d c

/-- The loop filling the `IndexSet` of token ids, `transaction.rs:300-303` (all ids are read, then inserted). -/
def parseIds : Parser IdSet := do
  let n ← getU32
  if n.toNat > maxOutputsCount * maxTokensCount then Parser.fail
  else do
    let l ← replicateP n.toNat (readExact 32)
    pure (IdSet.ofList l)

/-- `Transaction::sigma_parse`, `transaction.rs:276-317`. -/
def Tx.parse [DecidableEq G] (E : Sers G B T) : Parser (Tx G B T) := do
  let ni ← getU16
  let inputs ← replicateP ni.toNat (Input.parse E)
  let nd ← getU16
  let dataInputs ← replicateP nd.toNat (readExact 32)
  let ids ← parseIds
  let no ← getU16
  let cands ← replicateP no.toNat (parseBoxWith E (some ids))
  Parser.ofOption (Tx.newFromVec E inputs dataInputs cands).toOption

/-- `UnsignedTransaction::to_tx_without_proofs`, `unsigned.rs:84-91`. -/
def UnsignedTransaction.toTx [DecidableEq G] (E : Sers G B T) (u : UnsignedTransaction G B T) : Outcome (Tx G B T) :=
  Tx.new E (u.inputs.map UnsignedInput.toSign) u.dataInputs u.cands

/-- `UnsignedTransaction::bytes_to_sign`, `unsigned.rs:99-102`. -/
def UnsignedTransaction.bytesToSign [DecidableEq G] (E : Sers G B T) (u : UnsignedTransaction G B T) :
    Outcome Bytes := do
  let t ← u.toTx E
  t.bytesToSign E

/-- `UnsignedTransaction::new`, `unsigned.rs:61-77`. -/
def UnsignedTransaction.new [DecidableEq G] (E : Sers G B T) (inputs : List (UnsignedInput G B))
    (dataInputs : Option (List Bytes)) (cands : List (BoxCand G B T)) : Outcome (UnsignedTransaction G B T) := do
  let u0 : UnsignedTransaction G B T :=
    { txId := List.replicate 32 0, inputs := inputs, dataInputs := dataInputs, cands := cands }
  let b ← u0.bytesToSign E
  pure { u0 with txId := E.H b }

/-- `.enumerated().try_mapped(..)` of `from_unsigned_tx`, `transaction.rs:148-161`: the proofs are looked up by position,
surplus proofs are ignored. -/
def attachProofs : List (UnsignedInput G B) → List ProofBytes → Option (List (Input G B))
  | [], _ => some []
  | _ :: _, [] => none
  | i :: is, p :: ps => do
    let l ← attachProofs is ps
    pure (Input.ofUnsigned i p :: l)

/-- `Transaction::from_unsigned_tx`, `transaction.rs:144-167`. -/
def Tx.ofUnsigned [DecidableEq G] (E : Sers G B T) (u : UnsignedTransaction G B T) (proofs : List ProofBytes) :
    Outcome (Tx G B T) := do
  let inputs ← ofOpt (attachProofs u.inputs proofs)
  Tx.new E inputs u.dataInputs u.cands

end
end Verif
