import Verif.Model.Transaction
import Verif.Model.DerivationPath

/-!
# JSON forms of boxes and transactions

Source: `ergotree-ir/src/chain/json/{box_value,ergo_box,ergo_tree,token}.rs`, `ergotree-ir/src/chain/json.rs`,
`ergotree-ir/src/chain/ergo_box/register.rs`, `ergo-chain-types/src/{base16_bytes,digest32}.rs`,
`ergo-lib/src/chain/json/{transaction,context_extension}.rs`, `ergo-lib/src/chain/transaction/input.rs`,
`ergo-lib/src/chain/transaction/input/prover_result.rs` and its `json.rs`,
`ergotree-interpreter/src/sigma_protocol/prover/{context_extension,prover_result}.rs`.

The step between text and JSON values (`serde_json`) is not modelled: readers and writers are functions on JSON values.  What
`serde` derives is modelled as follows.  A struct is read from an object: fields are found by name (or alias), unknown fields
are ignored, a field given twice or missing is an error.  Simplifications: the fields are read in the order of the struct, not
of the text (this matters only for which failure comes first); a struct given as a JSON array, which derived readers also
accept, is an error here.
-/

namespace Verif

/-- A Rust string as a list of Unicode scalar values, e.g. `ergotree-ir/src/chain/json/ergo_box.rs:207`. -/
abbrev Text := List Char

/-- `serde_json::Number` (feature `arbitrary_precision`): an unsigned integer literal, a negative one (the value is `-n`), or the
text of any other number (with a fraction or an exponent), e.g. `ergo-chain-types/src/json/votes.rs:16`. -/
inductive JNum where
  | nat (n : Nat)
  | neg (n : Nat)
  | other (s : List Char)
  deriving DecidableEq, Repr

/-- `serde_json::Value`; an object keeps the order and the repetitions of its keys, as the text has them, read and written by
`ergotree-ir/src/chain/json/ergo_box.rs:21-239`. -/
inductive Json where
  | null
  | bool (b : Bool)
  | num (n : JNum)
  | str (s : Text)
  | arr (l : List Json)
  | obj (l : List (Text × Json))

namespace Json

/-- One lower case hexadecimal digit (`base16::encode_lower`), `ergo-chain-types/src/base16_bytes.rs:22`. -/
def hexDigit (n : Nat) : Char := if n < 10 then Char.ofNat (48 + n) else Char.ofNat (87 + n)

/-- `base16::encode_lower`, used at `ergo-chain-types/src/base16_bytes.rs:22`. -/
def hexEnc : Bytes → Text
  | [] => []
  | b :: bs => hexDigit (b.toNat / 16) :: hexDigit (b.toNat % 16) :: hexEnc bs

/-- The value of a hexadecimal digit in either case (`base16::decode`), `ergo-chain-types/src/base16_bytes.rs:35`. -/
def hexVal (c : Char) : Option Nat :=
  let n := c.toNat
  if 48 ≤ n ∧ n ≤ 57 then some (n - 48)
  else if 97 ≤ n ∧ n ≤ 102 then some (n - 87)
  else if 65 ≤ n ∧ n ≤ 70 then some (n - 55)
  else none

/-- `base16::decode`, used at `ergo-chain-types/src/base16_bytes.rs:35`: an odd length and foreign characters are errors. -/
def hexDec : Text → Option Bytes
  | [] => some []
  | [_] => none
  | a :: b :: cs => do
    let x ← hexVal a
    let y ← hexVal b
    let r ← hexDec cs
    pure (BitVec.ofNat 8 (16 * x + y) :: r)

/-- `str::parse` of an unsigned integer type with `bound` values (`u8`, `usize`): decimal digits, one leading `+` is allowed, used at
`ergotree-interpreter/src/sigma_protocol/prover/context_extension.rs:69`. -/
def parseUint (bound : Nat) : Text → Option Nat
  | [] => none
  | c :: cs =>
    let ds := if c = '+' then cs else c :: cs
    if ds = [] then none else go 0 ds
where
  /-- The digit loop; fails on a foreign character and on overflow. -/
  go : Nat → Text → Option Nat
    | acc, [] => some acc
    | acc, c :: cs =>
      match digitVal c with
      | none => none
      | some d => if acc * 10 + d < bound then go (acc * 10 + d) cs else none

/-! ## Reading -/

/-- The entries of an object with one of the names, the attributes `rename` and `alias`, e.g. `ergotree-ir/src/chain/json/ergo_box.rs:28`.
-/
def named (names : List Text) (o : List (Text × Json)) : List Json := (o.filter fun p => decide (p.1 ∈ names)).map Prod.snd

/-- A required field of a derived struct reader: given exactly once, e.g. `ergotree-ir/src/chain/json/ergo_box.rs:31`. -/
def req (names : List Text) (o : List (Text × Json)) : Outcome Json :=
  match named names o with
  | [j] => .ok j
  | _ => .err

/-- An `Option` field of a derived struct reader: `None` when absent or `null`, e.g. `ergotree-ir/src/chain/json/ergo_box.rs:28`. -/
def opt (names : List Text) (o : List (Text × Json)) : Outcome (Option Json) :=
  match named names o with
  | [] => .ok none
  | [.null] => .ok none
  | [j] => .ok (some j)
  | _ => .err

/-- `Deserialize` of an unsigned integer type with `bound` values, e.g. `ergotree-ir/src/chain/json/ergo_box.rs:45, 51`. -/
def readUint (bound : Nat) : Json → Outcome Nat
  | .num (.nat n) => if n < bound then .ok n else .err
  | _ => .err

/-- `Deserialize for String`, e.g. `ergotree-ir/src/chain/json/ergo_box.rs:207`. -/
def readStr : Json → Outcome Text
  | .str s => .ok s
  | _ => .err

/-- `Base16DecodedBytes` (`ergo-chain-types/src/base16_bytes.rs:28-37`). -/
def readHex (j : Json) : Outcome Bytes := do
  let s ← readStr j
  ofOpt (hexDec s)

/-- `Digest<32>` (`ergo-chain-types/src/digest32.rs:15-24`, `base16_bytes.rs:64-70`), also for `BoxId`, `TokenId`, `TxId`. -/
def readDigest (j : Json) : Outcome Bytes := do
  let b ← readHex j
  if b.length = 32 then .ok b else .err

/-- `Deserialize for Vec<T>`, e.g. `ergotree-ir/src/chain/json/ergo_box.rs:37`. -/
def readArr {α : Type} (f : Json → Outcome α) : Json → Outcome (List α)
  | .arr l => go l
  | _ => .err
where
  /-- The items, in order. -/
  go : List Json → Outcome (List α)
    | [] => .ok []
    | j :: l => do
      let a ← f j
      let as ← go l
      pure (a :: as)

/-- `BoxValueJson` and `TokenAmountJson` with their conversions (`json/box_value.rs:16-34`, `json/token.rs:16-35`): a number, or
a string with a number (`DisplayFromStr`); only the range of `u64` is checked. -/
def readAmount : Json → Outcome Nat
  | .num (.nat n) => if n < 2 ^ 64 then .ok n else .err
  | .str s =>
    match parseUint (2 ^ 64) s with
    | some n => if decimal n = s then .ok n else .err
    | none => .err
  | _ => .err

end Json

open Json

/-! ## Field names -/

/-- `boxId`, `ergotree-ir/src/chain/json/ergo_box.rs:28`. -/
def kBoxId : Text := ['b', 'o', 'x', 'I', 'd']
/-- `id`, `ergotree-ir/src/chain/json/ergo_box.rs:28`. -/
def kId : Text := ['i', 'd']
/-- `value`, `ergotree-ir/src/chain/json/ergo_box.rs:31`. -/
def kValue : Text := ['v', 'a', 'l', 'u', 'e']
/-- `ergoTree`, `ergotree-ir/src/chain/json/ergo_box.rs:34`. -/
def kErgoTree : Text := ['e', 'r', 'g', 'o', 'T', 'r', 'e', 'e']
/-- `assets`, `ergotree-ir/src/chain/json/ergo_box.rs:37`. -/
def kAssets : Text := ['a', 's', 's', 'e', 't', 's']
/-- `additionalRegisters`, `ergotree-ir/src/chain/json/ergo_box.rs:40`. -/
def kRegisters : Text :=
  ['a', 'd', 'd', 'i', 't', 'i', 'o', 'n', 'a', 'l', 'R', 'e', 'g', 'i', 's', 't', 'e', 'r', 's']
/-- `creationHeight`, `ergotree-ir/src/chain/json/ergo_box.rs:45`. -/
def kHeight : Text := ['c', 'r', 'e', 'a', 't', 'i', 'o', 'n', 'H', 'e', 'i', 'g', 'h', 't']
/-- `transactionId`, `ergotree-ir/src/chain/json/ergo_box.rs:48`. -/
def kTransactionId : Text := ['t', 'r', 'a', 'n', 's', 'a', 'c', 't', 'i', 'o', 'n', 'I', 'd']
/-- `txId`, `ergotree-ir/src/chain/json/ergo_box.rs:48`. -/
def kTxId : Text := ['t', 'x', 'I', 'd']
/-- `index`, `ergotree-ir/src/chain/json/ergo_box.rs:51`. -/
def kIndex : Text := ['i', 'n', 'd', 'e', 'x']
/-- `tokenId`, `ergotree-ir/src/chain/token.rs:174`. -/
def kTokenId : Text := ['t', 'o', 'k', 'e', 'n', 'I', 'd']
/-- `amount`, `ergotree-ir/src/chain/token.rs:177`. -/
def kAmount : Text := ['a', 'm', 'o', 'u', 'n', 't']
/-- `rawValue`, `ergotree-ir/src/chain/json/ergo_box.rs:207`. -/
def kRawValue : Text := ['r', 'a', 'w', 'V', 'a', 'l', 'u', 'e']
/-- `serializedValue`, `ergotree-ir/src/chain/json/ergo_box.rs:207`. -/
def kSerializedValue : Text := ['s', 'e', 'r', 'i', 'a', 'l', 'i', 'z', 'e', 'd', 'V', 'a', 'l', 'u', 'e']
/-- `spendingProof`, `ergo-lib/src/chain/transaction/input.rs:93`. -/
def kSpendingProof : Text := ['s', 'p', 'e', 'n', 'd', 'i', 'n', 'g', 'P', 'r', 'o', 'o', 'f']
/-- `proofBytes`, `ergo-lib/src/chain/transaction/input/prover_result.rs:21`. -/
def kProofBytes : Text := ['p', 'r', 'o', 'o', 'f', 'B', 'y', 't', 'e', 's']
/-- `extension`, `ergo-lib/src/chain/transaction/input/prover_result.rs:28`. -/
def kExtension : Text := ['e', 'x', 't', 'e', 'n', 's', 'i', 'o', 'n']
/-- `inputs`, `ergo-lib/src/chain/json/transaction.rs:16`. -/
def kInputs : Text := ['i', 'n', 'p', 'u', 't', 's']
/-- `dataInputs`, `ergo-lib/src/chain/json/transaction.rs:21`. -/
def kDataInputs : Text := ['d', 'a', 't', 'a', 'I', 'n', 'p', 'u', 't', 's']
/-- `outputs`, `ergo-lib/src/chain/json/transaction.rs:23`. -/
def kOutputs : Text := ['o', 'u', 't', 'p', 'u', 't', 's']

/-! ## Tokens and registers -/

/-- `Serialize for Token`, `ergotree-ir/src/chain/token.rs:163-173`. -/
def writeToken (t : Token) : Json := .obj [(kTokenId, .str (hexEnc t.1)), (kAmount, .num (.nat t.2))]

/-- `Deserialize for Token`, `ergotree-ir/src/chain/token.rs:163-173`. -/
def readToken : Json → Outcome Token
  | .obj o => do
    let i ← req [kTokenId] o >>= readDigest
    let a ← req [kAmount] o >>= readAmount
    pure (i, a)
  | _ => .err

section
variable {G B T : Type}

/-- `ConstantHolder`: a hexadecimal string, or an object that holds one (`json/ergo_box.rs:196-239`,
`ergotree-ir/src/chain/json.rs:30-79`), turned into a register value (lines 199-203). -/
def readRegister (E : Sers G B T) : Json → Outcome (RegVal G B)
  | .str s => do
    let b ← ofOpt (hexDec s)
    pure (RegVal.parseBytes E b)
  | .obj o => do
    let b ← req [kRawValue, kSerializedValue] o >>= readHex
    pure (RegVal.parseBytes E b)
  | _ => .err

/-- The entries of `HashMap<NonMandatoryRegisterId, ConstantHolder>`: a later entry replaces an earlier one,
`ergotree-ir/src/chain/json/ergo_box.rs:196-239`. -/
def readRegEntries (E : Sers G B T) : List (Text × Json) → FMap NmId (RegVal G B) → Outcome (FMap NmId (RegVal G B))
  | [], m => .ok m
  | p :: l, m => do
    let r ← NmId.ofStr p.1
    let v ← readRegister E p.2
    readRegEntries E l (m.insert r v)

/-- `Deserialize for NonMandatoryRegisters`, `register.rs:24-31, 220-232`. -/
def readRegs (E : Sers G B T) : Json → Outcome (Regs G B)
  | .obj o => do
    let m ← readRegEntries E o []
    ofOpt (Regs.ofMap m)
  | _ => .err

/-- `From<NonMandatoryRegisters> for HashMap<NonMandatoryRegisterId, Base16EncodedBytes>`, `register.rs:171-187`, for the
registers from the given one on; more than six registers would panic. -/
def writeRegEntries [DecidableEq G] (E : Sers G B T) : List NmId → Regs G B → Outcome (List (Text × Json))
  | _, [] => .ok []
  | [], _ :: _ => .panic
  | r :: rs, v :: vs => do
    let b ← v.serBytes E
    let l ← writeRegEntries E rs vs
    pure ((r.toStr, .str (hexEnc b)) :: l)

/-- `Serialize for NonMandatoryRegisters`, `register.rs:24-31, 171-187`; `ord` is the iteration order of the hash map. -/
def writeRegs [DecidableEq G] (E : Sers G B T) (ord : List (Text × Json) → List (Text × Json)) (rs : Regs G B) :
    Outcome Json := do
  let l ← writeRegEntries E NmId.regIds rs
  pure (.obj (ord l))

/-! ## Boxes -/

/-- The conversion of the assets, `json/ergo_box.rs:58-67, 163-172`. -/
def readTokens (j : Json) : Outcome (Option (List Token)) := do
  let l ← readArr readToken j
  ofOpt (boxTokensOf l)

/-- `json/ergo_tree.rs:22-32`; `tp` is `ErgoTree::sigma_parse_bytes`. -/
def readTree (tp : Bytes → Option T) (j : Json) : Outcome T := do
  let b ← readHex j
  ofOpt (tp b)

/-- `ErgoBoxCandidateJson` and `TryFrom<ErgoBoxCandidateJson>`, `json/ergo_box.rs:121-140, 160-181`. -/
def readCandFields (E : Sers G B T) (tp : Bytes → Option T) (o : List (Text × Json)) : Outcome (BoxCand G B T) := do
  let value ← req [kValue] o >>= readAmount
  let tree ← req [kErgoTree] o >>= readTree tp
  let tokens ← req [kAssets] o >>= readTokens
  let regs ← req [kRegisters] o >>= readRegs E
  let height ← req [kHeight] o >>= readUint (2 ^ 32)
  pure { value := value, tree := tree, tokens := tokens, regs := regs, height := BitVec.ofNat 32 height }

/-- `Deserialize for ErgoBoxCandidate`, `ergotree-ir/src/chain/json/ergo_box.rs:121-140, 160-181`. -/
def readCand (E : Sers G B T) (tp : Bytes → Option T) : Json → Outcome (BoxCand G B T)
  | .obj o => readCandFields E tp o
  | _ => .err

/-- `Option<BoxId>` of `ErgoBoxJson`, `json/ergo_box.rs:28-29`. -/
def readDeclaredId : Option Json → Outcome (Option Bytes)
  | none => .ok none
  | some j => do
    let d ← readDigest j
    pure (some d)

/-- `Deserialize for ErgoBox`: `ErgoBoxJson` and `TryFrom<ErgoBoxJson>`, `json/ergo_box.rs:26-98`. -/
def readBox [DecidableEq G] (E : Sers G B T) (tp : Bytes → Option T) : Json → Outcome (EBox G B T)
  | .obj o => do
    let declared ← opt [kBoxId, kId] o
    let declaredId ← readDeclaredId declared
    let c ← readCandFields E tp o
    let txId ← req [kTransactionId, kTxId] o >>= readDigest
    let index ← req [kIndex] o >>= readUint (2 ^ 16)
    let b ← EBox.ofCand E c txId (BitVec.ofNat 16 index)
    match declaredId with
    | some d => if b.boxId = d then .ok b else .err
    | none => .ok b
  | _ => .err

/-- The fields shared by `From<ErgoBox> for ErgoBoxJson` and `From<ErgoBoxCandidate> for ErgoBoxCandidateJson`,
`json/ergo_box.rs:100-119, 142-158`, `json/ergo_tree.rs:10-20`. -/
def writeCandFields [DecidableEq G] (E : Sers G B T) (ord : List (Text × Json) → List (Text × Json)) (c : BoxCand G B T) :
    Outcome (List (Text × Json)) := do
  let tree ← E.tc.ser c.tree
  let regs ← writeRegs E ord c.regs
  pure [(kValue, .num (.nat c.value)), (kErgoTree, .str (hexEnc tree)),
    (kAssets, .arr ((c.tokens.getD []).map writeToken)), (kRegisters, regs), (kHeight, .num (.nat c.height.toNat))]

/-- `Serialize for ErgoBoxCandidate`, `ergotree-ir/src/chain/json/ergo_box.rs:100-119, 142-158`. -/
def writeCand [DecidableEq G] (E : Sers G B T) (ord : List (Text × Json) → List (Text × Json)) (c : BoxCand G B T) :
    Outcome Json := do
  let o ← writeCandFields E ord c
  pure (.obj o)

/-- `Serialize for ErgoBox`, `json/ergo_box.rs:26-53, 100-119`. -/
def writeBox [DecidableEq G] (E : Sers G B T) (ord : List (Text × Json) → List (Text × Json)) (b : EBox G B T) :
    Outcome Json := do
  let o ← writeCandFields E ord b.toCand
  pure (.obj ((kBoxId, .str (hexEnc b.boxId)) :: o ++
    [(kTransactionId, .str (hexEnc b.txId)), (kIndex, .num (.nat b.index.toNat))]))

/-! ## Inputs -/

/-- `Serialize for ContextExtensionSerde`, `ergo-lib/src/chain/json/context_extension.rs:18-33`. -/
def writeExtEntries [DecidableEq G] (E : Sers G B T) : Extension G B → Outcome (List (Text × Json))
  | [] => .ok []
  | p :: l => do
    let b ← p.2.ser E.pc E.bc
    let r ← writeExtEntries E l
    pure ((decimal p.1.toNat, .str (hexEnc b)) :: r)

/-- See `writeExtEntries`, `ergo-lib/src/chain/json/context_extension.rs:18-33`. -/
def writeExt [DecidableEq G] (E : Sers G B T) (m : Extension G B) : Outcome Json := do
  let l ← writeExtEntries E m
  pure (.obj l)

/-- The entries of `IndexMap<String, String>`: an entry with a key seen before replaces the value in place,
`ergo-lib/src/chain/json/context_extension.rs:9`. -/
def readStrMap : List (Text × Json) → FMap Text Text → Outcome (FMap Text Text)
  | [], m => .ok m
  | p :: l, m => do
    let s ← readStr p.2
    readStrMap l (m.insert p.1 s)

/-- `TryFrom<IndexMap<String, String>> for ContextExtension`, 
`ergotree-interpreter/src/sigma_protocol/prover/context_extension.rs:63-92`. -/
def extOfStrMap (E : Sers G B T) : FMap Text Text → Extension G B → Outcome (Extension G B)
  | [], m => .ok m
  | p :: l, m => do
    let i ← ofOpt (parseUint 256 p.1)
    let b ← ofOpt (hexDec p.2)
    let c ← ofOpt (Constant.parse E.utf8 E.pc E.bc b)
    extOfStrMap E l (m.insert (BitVec.ofNat 8 i) c.1)

/-- `Deserialize` of a `ContextExtension`, `ergo-lib/src/chain/json/context_extension.rs:6-15`. -/
def readExt (E : Sers G B T) : Json → Outcome (Extension G B)
  | .obj o => do
    let m ← readStrMap o []
    extOfStrMap E m []
  | _ => .err

/-- `Serialize for ProverResult`, `ergo-lib/src/chain/transaction/input/prover_result/json.rs:10-23`;
`From<ProofBytes> for String`, `ergotree-interpreter/src/sigma_protocol/prover/prover_result.rs:50-57`. -/
def writeProverResult [DecidableEq G] (E : Sers G B T) (p : ProverResult G B) : Outcome Json := do
  let e ← writeExt E p.extension
  pure (.obj [(kProofBytes, .str (hexEnc p.proof.toBytes)), (kExtension, e)])

/-- `Deserialize` of a `ProverResult` from an object (`input/prover_result.rs:15-32`) or from a string
(`input/prover_result/json.rs:25-35`), `ergotree-ir/src/chain/json.rs:30-79`; `TryFrom<String> for ProofBytes`,
`ergotree-interpreter/src/sigma_protocol/prover/prover_result.rs:60-66`. -/
def readProverResult (E : Sers G B T) : Json → Outcome (ProverResult G B)
  | .str s => do
    let b ← ofOpt (hexDec s)
    pure ⟨ProofBytes.ofBytes b, []⟩
  | .obj o => do
    let b ← req [kProofBytes] o >>= readHex
    let e ← req [kExtension] o >>= readExt E
    pure ⟨ProofBytes.ofBytes b, e⟩
  | _ => .err

/-- `Serialize for Input`, `ergo-lib/src/chain/transaction/input.rs:84-98`. -/
def writeInput [DecidableEq G] (E : Sers G B T) (i : Input G B) : Outcome Json := do
  let p ← writeProverResult E i.proof
  pure (.obj [(kBoxId, .str (hexEnc i.boxId)), (kSpendingProof, p)])

/-- `Deserialize for Input`, `ergo-lib/src/chain/transaction/input.rs:84-98`. -/
def readInput (E : Sers G B T) : Json → Outcome (Input G B)
  | .obj o => do
    let i ← req [kBoxId, kId] o >>= readDigest
    let p ← req [kSpendingProof] o >>= readProverResult E
    pure ⟨i, p⟩
  | _ => .err

/-- `Serialize for UnsignedInput`, `ergo-lib/src/chain/transaction/input.rs:42-55`. -/
def writeUnsignedInput [DecidableEq G] (E : Sers G B T) (i : UnsignedInput G B) : Outcome Json := do
  let e ← writeExt E i.extension
  pure (.obj [(kBoxId, .str (hexEnc i.boxId)), (kExtension, e)])

/-- `Deserialize for UnsignedInput`, `ergo-lib/src/chain/transaction/input.rs:27-39`. -/
def readUnsignedInput (E : Sers G B T) : Json → Outcome (UnsignedInput G B)
  | .obj o => do
    let i ← req [kBoxId] o >>= readDigest
    let e ← req [kExtension] o >>= readExt E
    pure ⟨i, e⟩
  | _ => .err

/-- `Serialize for DataInput`, `ergo-lib/src/chain/transaction/data_input.rs:15-20`. -/
def writeDataInput (d : Bytes) : Json := .obj [(kBoxId, .str (hexEnc d))]

/-- `Deserialize for DataInput`, `ergo-lib/src/chain/transaction/data_input.rs:15-20`. -/
def readDataInput : Json → Outcome Bytes
  | .obj o => req [kBoxId, kId] o >>= readDigest
  | _ => .err

/-! ## Transactions -/

/-- `Serialize for Vec<T>`, of the lists at `ergo-lib/src/chain/json/transaction.rs:16-23`. -/
def writeMany {α : Type} (f : α → Outcome Json) : List α → Outcome (List Json)
  | [] => .ok []
  | a :: l => do
    let j ← f a
    let js ← writeMany f l
    pure (j :: js)

/-- `TransactionJson` and `From<Transaction>`, `ergo-lib/src/chain/json/transaction.rs:11-25, 64-76`. -/
def writeTx [DecidableEq G] (E : Sers G B T) (ord : List (Text × Json) → List (Text × Json)) (t : Tx G B T) :
    Outcome Json := do
  let is ← writeMany (writeInput E) t.inputs
  let os ← writeMany (writeBox E ord) t.outputs
  pure (.obj [(kId, .str (hexEnc t.txId)), (kInputs, .arr is),
    (kDataInputs, .arr ((t.dataInputs.getD []).map writeDataInput)), (kOutputs, .arr os)])

/-- `TransactionJson` and `TryFrom<TransactionJson>`, `ergo-lib/src/chain/json/transaction.rs:11-25, 90-106`. -/
def readTx [DecidableEq G] (E : Sers G B T) (tp : Bytes → Option T) : Json → Outcome (Tx G B T)
  | .obj o => do
    let id ← req [kId] o >>= readDigest
    let is ← req [kInputs] o >>= readArr (readInput E)
    let ds ← req [kDataInputs] o >>= readArr readDataInput
    let os ← req [kOutputs] o >>= readArr (readBox E tp)
    let t ← Tx.newFromVec E is ds (os.map EBox.toCand)
    if t.txId = id then .ok t else .err
  | _ => .err

/-- `UnsignedTransaction::new_from_vec`, `ergo-lib/src/chain/transaction/unsigned.rs:43-58`. -/
def UnsignedTransaction.newFromVec [DecidableEq G] (E : Sers G B T) (inputs : List (UnsignedInput G B))
    (dataInputs : List Bytes) (cands : List (BoxCand G B T)) : Outcome (UnsignedTransaction G B T) := do
  let i ← ofOpt (ioVec inputs)
  let d ← ofOpt (optIoVec dataInputs)
  let c ← ofOpt (ioVec cands)
  UnsignedTransaction.new E i d c

/-- `UnsignedTransactionJson` and `From<UnsignedTransaction>`, `ergo-lib/src/chain/json/transaction.rs:27-53`. -/
def writeUnsignedTx [DecidableEq G] (E : Sers G B T) (ord : List (Text × Json) → List (Text × Json))
    (u : UnsignedTransaction G B T) : Outcome Json := do
  let is ← writeMany (writeUnsignedInput E) u.inputs
  let os ← writeMany (writeCand E ord) u.cands
  pure (.obj [(kInputs, .arr is), (kDataInputs, .arr ((u.dataInputs.getD []).map writeDataInput)), (kOutputs, .arr os)])

/-- `UnsignedTransactionJson` and `TryFrom<UnsignedTransactionJson>`, `ergo-lib/src/chain/json/transaction.rs:27-40, 55-62`. -/
def readUnsignedTx [DecidableEq G] (E : Sers G B T) (tp : Bytes → Option T) : Json → Outcome (UnsignedTransaction G B T)
  | .obj o => do
    let is ← req [kInputs] o >>= readArr (readUnsignedInput E)
    let ds ← req [kDataInputs] o >>= readArr readDataInput
    let os ← req [kOutputs] o >>= readArr (readCand E tp)
    UnsignedTransaction.newFromVec E is ds os
  | _ => .err

end
end Verif
