import Verif.Model.JsonChain
import Verif.Model.NodeResp

/-!
# The JSON form of EIP-12

Source: `bindings/ergo-lib-wasm/src/json.rs`, and the same text in `bindings/ergo-lib-c-core/src/json.rs`.  These are writers only; what
they write is read by the readers of `Model/Json.lean` (`from_json`).  Numbers that do not fit into the numbers of JavaScript are
written as texts.
-/

namespace Verif
open Json

/-- `BoxValueJsonEip12` and `TokenAmountJsonEip12`: `DisplayFromStr`, `bindings/ergo-lib-wasm/src/json.rs:168-180, 200-206`. -/
def writeTextAmount (n : Nat) : Json := .str (decimal n)

/-- `From<Token> for TokenJsonEip12` and its `Serialize`, `bindings/ergo-lib-wasm/src/json.rs:182-198`; `Token::to_js_eip12`,
`bindings/ergo-lib-wasm/src/token.rs:123-127`. -/
def writeTokenEip12 (t : Token) : Json := .obj [(kTokenId, .str (hexEnc t.1)), (kAmount, writeTextAmount t.2)]

section
variable {G B T : Type} [DecidableEq G]

/-- The fields shared by `ErgoBoxJsonEip12` and `ErgoBoxCandidateJsonEip12`, `bindings/ergo-lib-wasm/src/json.rs:86-104, 131-166`. -/
def writeCandFieldsEip12 (E : Sers G B T) (ord : List (Text × Json) → List (Text × Json)) (c : BoxCand G B T) :
    Outcome (List (Text × Json)) := do
  let tree ← E.tc.ser c.tree
  let regs ← writeRegs E ord c.regs
  pure [(kValue, writeTextAmount c.value), (kErgoTree, .str (hexEnc tree)),
    (kAssets, .arr ((c.tokens.getD []).map writeTokenEip12)), (kRegisters, regs), (kHeight, .num (.nat c.height.toNat))]

/-- `From<ErgoBoxCandidate> for ErgoBoxCandidateJsonEip12`, `bindings/ergo-lib-wasm/src/json.rs:131-166`. -/
def writeCandEip12 (E : Sers G B T) (ord : List (Text × Json) → List (Text × Json)) (c : BoxCand G B T) : Outcome Json := do
  let o ← writeCandFieldsEip12 E ord c
  pure (.obj o)

/-- `From<ErgoBox> for ErgoBoxJsonEip12`, `bindings/ergo-lib-wasm/src/json.rs:82-127`; `ErgoBox::to_js_eip12`,
`bindings/ergo-lib-wasm/src/ergo_box.rs:223-227`. -/
def writeBoxEip12 (E : Sers G B T) (ord : List (Text × Json) → List (Text × Json)) (b : EBox G B T) : Outcome Json := do
  let o ← writeCandFieldsEip12 E ord b.toCand
  pure (.obj ((kBoxId, .str (hexEnc b.boxId)) :: o ++
    [(kTransactionId, .str (hexEnc b.txId)), (kIndex, .num (.nat b.index.toNat))]))

/-- `From<Transaction> for TransactionJsonEip12`, `bindings/ergo-lib-wasm/src/json.rs:22-51`; `Transaction::to_js_eip12`,
`bindings/ergo-lib-wasm/src/transaction.rs:246-250`. -/
def writeTxEip12 (E : Sers G B T) (ord : List (Text × Json) → List (Text × Json)) (t : Tx G B T) : Outcome Json := do
  let is ← writeMany (writeInput E) t.inputs
  let os ← writeMany (writeBoxEip12 E ord) t.outputs
  pure (.obj [(kId, .str (hexEnc t.txId)), (kInputs, .arr is),
    (kDataInputs, .arr ((t.dataInputs.getD []).map writeDataInput)), (kOutputs, .arr os)])

/-- `From<UnsignedTransaction> for UnsignedTransactionJsonEip12`, `bindings/ergo-lib-wasm/src/json.rs:53-80`;
`UnsignedTransaction::to_js_eip12`, `bindings/ergo-lib-wasm/src/transaction.rs:389-393`. -/
def writeUnsignedTxEip12 (E : Sers G B T) (ord : List (Text × Json) → List (Text × Json)) (u : UnsignedTransaction G B T) :
    Outcome Json := do
  let is ← writeMany (writeUnsignedInput E) u.inputs
  let os ← writeMany (writeCandEip12 E ord) u.cands
  pure (.obj [(kInputs, .arr is), (kDataInputs, .arr ((u.dataInputs.getD []).map writeDataInput)), (kOutputs, .arr os)])

end
end Verif
