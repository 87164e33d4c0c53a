import Verif.Model.BoxSelector

/-!
# Transaction building

Source: `ergo-lib/src/wallet/tx_builder.rs`, `ergo-lib/src/chain/ergo_box/box_builder.rs`.
-/

namespace Verif

/-- `ErgoBoxCandidate` (`ergotree-ir/src/chain/ergo_box.rs`): assets, guarding script, creation height.
Simplification: registers are not modelled here (`Model/Register.lean` has them); scripts are opaque bytes. -/
structure Candidate where
  assets : Assets
  tree : Bytes
  height : Nat
  deriving DecidableEq, Repr

/-- Parameters standing for code outside this model, the functions called at `ergo-lib/src/wallet/tx_builder.rs:141-256`. -/
structure TxEnv where
  /-- serialized size of a candidate (`sigma_serialize_bytes()?.len()`); `none` is a serialization error. -/
  size : Candidate → Option Nat
  /-- script bytes of the miner fee contract, `tx_builder.rs:275-277`. -/
  feeTree : Bytes
  /-- `UnsignedTransaction::new` can serialize the transaction to compute its id (`unsigned.rs:61-82`). -/
  serializes : List Bytes → List Bytes → List Candidate → Bool

/-- `ErgoBoxCandidateBuilder::build`, `box_builder.rs:177-271`, for a builder with the default
`min_value_per_byte`, no registers and no minting token. -/
def buildCandidate (env : TxEnv) (value : Nat) (tree : Bytes) (height : Nat) (toks : List Token) : Outcome Candidate :=
  if toks.length > maxTokensCount then .err
  else
    let b : Candidate := { assets := { value := value, tokens := if toks.isEmpty then none else some toks },
                           tree := tree, height := height }
    match env.size b with
    | none => .err
    | some n =>
      match BoxValue.tryFromI64 ((n * BoxValue.minValuePerBoxByte : Nat) : Int) with
      | none => .panic
      | some minValue => if value ≥ minValue then .ok b else .err

/-- The change box loop of `build_tx`, `tx_builder.rs:173-189`. -/
def buildChange (env : TxEnv) (tree : Bytes) (height : Nat) : List Assets → Outcome (List Candidate)
  | [] => pure []
  | b :: bs => do
    let c ← buildCandidate env b.value tree height b.toks
    let cs ← buildChange env tree height bs
    pure (c :: cs)

/-- `new_miner_fee_box`, `tx_builder.rs:271-279`. -/
def newMinerFeeBox (env : TxEnv) (fee : Nat) (height : Nat) : Outcome Candidate :=
  buildCandidate env fee env.feeTree height []

/-- `check_enough_token_burn_permit`, `tx_builder.rs:335-354`. -/
def checkEnoughBurnPermit (burned permits : TokenMap) : Bool :=
  burned.all fun b => match FMap.get permits b.1 with
    | some p => !decide (b.2 > p)
    | none => false

/-- `check_unused_token_burn_permit`, `tx_builder.rs:356-376`. -/
def checkUnusedBurnPermit (burned permits : TokenMap) : Bool :=
  permits.all fun p => match FMap.get burned p.1 with
    | some b => !decide (b < p.2)
    | none => false

/-- Output tokens must be present in the inputs, `tx_builder.rs:227-232`. -/
def checkOutputsCovered (inputTokens outputTokens : TokenMap) : Bool :=
  outputTokens.all fun o => match FMap.get inputTokens o.1 with
    | some i => decide (i ≥ o.2)
    | none => false

/-- `TxBuilder`, `tx_builder.rs:39-48`; `changeTree = none` when `Contract::pay_to_address` fails;
`ctxExt` gives the context extension set for a box id (opaque bytes). -/
structure TxBuilder where
  boxes : List InBox
  changeBoxes : List Assets
  dataInputs : List Bytes
  outputs : List Candidate
  height : Nat
  fee : Nat
  changeTree : Option Bytes
  ctxExt : FMap Bytes Bytes
  permits : List Token

/-- The result of `build`, `ergo-lib/src/chain/transaction/unsigned.rs:29-39` (without the id). -/
structure UnsignedTx where
  inputs : List (Bytes × Option Bytes)
  dataInputs : List Bytes
  outputs : List Candidate
  deriving DecidableEq, Repr

/-- Token checks of `build_tx`, `tx_builder.rs:211-240`. -/
def checkTokens (firstInputId : TokenId) (inputs outputs : List Assets) (permitList : List Token) : Outcome Unit := do
  let inputTokens ← sumTokensFromBoxes inputs
  let outputTokens ← sumTokensFromBoxes outputs
  let withoutMinted := outputTokens.filter fun p => p.1 ≠ firstInputId
  if outputTokens.length - withoutMinted.length > 1 then .err
  else if !checkOutputsCovered inputTokens withoutMinted then .err
  else do
    let burned ← subtractTokens inputTokens withoutMinted
    let permits ← addTokens [] permitList
    if !checkEnoughBurnPermit burned permits then .err
    else if !checkUnusedBurnPermit burned permits then .err
    else pure ()

/-- `TxBuilder::build` / `build_tx`, `tx_builder.rs:141-260`. -/
def buildTx (m : Mode) (env : TxEnv) (b : TxBuilder) : Outcome UnsignedTx :=
  match b.boxes with
  | [] => .err
  | first :: _ =>
    if b.outputs.isEmpty then .err
    else if b.boxes.length > 65535 then .err
    else if ¬ (b.boxes.map InBox.id).Nodup then .err
    else if b.dataInputs.length > 65535 then .err
    else match b.changeTree with
      | none => .err
      | some tree => do
        let change ← buildChange env tree b.height b.changeBoxes
        let feeBox ← newMinerFeeBox env b.fee b.height
        let outs := b.outputs ++ change ++ [feeBox]
        if outs.length > 65535 then .err
        else do
          let totalIn ← sumValue m (b.boxes.map InBox.assets)
          let totalOut ← sumValue m (outs.map Candidate.assets)
          if totalOut > totalIn then .err
          else if totalOut < totalIn then .err
          else do
            let _ ← checkTokens first.id (b.boxes.map InBox.assets) (outs.map Candidate.assets) b.permits
            if env.serializes (b.boxes.map InBox.id) b.dataInputs outs then
              pure { inputs := b.boxes.map fun x => (x.id, FMap.get b.ctxExt x.id),
                     dataInputs := b.dataInputs, outputs := outs }
            else .err

end Verif
