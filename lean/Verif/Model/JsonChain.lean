import Verif.Model.JsonHint
import Verif.Model.NipopowCodec

/-!
# JSON forms of headers, Merkle proofs, NiPoPoW proofs and blocks

Source: `ergo-chain-types/src/{header,votes,block_id,digest32,ec_point}.rs`, `ergo-chain-types/src/json/{autolykos_solution,votes}.rs`,
`ergo-merkle-tree/src/{json,merkleproof,batchmerkleproof}.rs`, `ergo-nipopow/src/nipopow_proof.rs`, `ergo-lib/src/chain/block.rs`.

Readers and writers are functions on JSON values, as in `Verif/Model/Json.lean`, with the same simplifications.  An object with
the private key by which `serde_json` passes numbers around is not taken for a number.
-/

namespace Verif
open Json Merkle

/-! ## Field names -/

/-- `version`, `ergo-chain-types/src/header.rs:18`. -/
def kVersion : Text := ['v', 'e', 'r', 's', 'i', 'o', 'n']
/-- `parentId`, `ergo-chain-types/src/header.rs:24`. -/
def kParentId : Text := ['p', 'a', 'r', 'e', 'n', 't', 'I', 'd']
/-- `adProofsRoot`, `ergo-chain-types/src/header.rs:27`. -/
def kAdProofsRoot : Text := ['a', 'd', 'P', 'r', 'o', 'o', 'f', 's', 'R', 'o', 'o', 't']
/-- `stateRoot`, `ergo-chain-types/src/header.rs:30`. -/
def kStateRoot : Text := ['s', 't', 'a', 't', 'e', 'R', 'o', 'o', 't']
/-- `transactionsRoot`, `ergo-chain-types/src/header.rs:33`. -/
def kTransactionsRoot : Text := ['t', 'r', 'a', 'n', 's', 'a', 'c', 't', 'i', 'o', 'n', 's', 'R', 'o', 'o', 't']
/-- `timestamp`, `ergo-chain-types/src/header.rs:36`. -/
def kTimestamp : Text := ['t', 'i', 'm', 'e', 's', 't', 'a', 'm', 'p']
/-- `nBits`, `ergo-chain-types/src/header.rs:39`. -/
def kNBits : Text := ['n', 'B', 'i', 't', 's']
/-- `height`, `ergo-chain-types/src/header.rs:42`. -/
def kBlockHeight : Text := ['h', 'e', 'i', 'g', 'h', 't']
/-- `extensionHash`, `ergo-chain-types/src/header.rs:45`. -/
def kExtensionHash : Text := ['e', 'x', 't', 'e', 'n', 's', 'i', 'o', 'n', 'H', 'a', 's', 'h']
/-- `powSolutions`, `ergo-chain-types/src/header.rs:48`. -/
def kPowSolutions : Text := ['p', 'o', 'w', 'S', 'o', 'l', 'u', 't', 'i', 'o', 'n', 's']
/-- `votes`, `ergo-chain-types/src/header.rs:52`. -/
def kVotes : Text := ['v', 'o', 't', 'e', 's']
/-- `pk`, `ergo-chain-types/src/header.rs:200`. -/
def kPk : Text := ['p', 'k']
/-- `w`, `ergo-chain-types/src/header.rs:203`. -/
def kOnetime : Text := ['w']
/-- `n`, `ergo-chain-types/src/header.rs:209`. -/
def kNonce : Text := ['n']
/-- `d`, `ergo-chain-types/src/header.rs:227`. -/
def kDistance : Text := ['d']
/-- `leafData`, `ergo-merkle-tree/src/json.rs:39`. -/
def kLeafData : Text := ['l', 'e', 'a', 'f', 'D', 'a', 't', 'a']
/-- `levels`, `ergo-merkle-tree/src/json.rs:43`. -/
def kLevels : Text := ['l', 'e', 'v', 'e', 'l', 's']
/-- `digest`, `ergo-merkle-tree/src/json.rs:84, 112`. -/
def kDigest : Text := ['d', 'i', 'g', 'e', 's', 't']
/-- `side`, `ergo-merkle-tree/src/json.rs:113`. -/
def kSide : Text := ['s', 'i', 'd', 'e']
/-- `indices`, `ergo-merkle-tree/src/json.rs:146`. -/
def kIndices : Text := ['i', 'n', 'd', 'i', 'c', 'e', 's']
/-- `proofs`, `ergo-merkle-tree/src/json.rs:147`. -/
def kProofs : Text := ['p', 'r', 'o', 'o', 'f', 's']
/-- `header`, `ergo-nipopow/src/nipopow_proof.rs:204`, `ergo-lib/src/chain/block.rs:25`. -/
def kHeader : Text := ['h', 'e', 'a', 'd', 'e', 'r']
/-- `interlinks`, `ergo-nipopow/src/nipopow_proof.rs:207`. -/
def kInterlinks : Text := ['i', 'n', 't', 'e', 'r', 'l', 'i', 'n', 'k', 's']
/-- `interlinksProof`, `ergo-nipopow/src/nipopow_proof.rs:209`. -/
def kInterlinksProof : Text := ['i', 'n', 't', 'e', 'r', 'l', 'i', 'n', 'k', 's', 'P', 'r', 'o', 'o', 'f']
/-- `m`, `ergo-nipopow/src/nipopow_proof.rs:19`. -/
def kParamM : Text := ['m']
/-- `k`, `ergo-nipopow/src/nipopow_proof.rs:22`. -/
def kParamK : Text := ['k']
/-- `prefix`, `ergo-nipopow/src/nipopow_proof.rs:25`. -/
def kPrefix : Text := ['p', 'r', 'e', 'f', 'i', 'x']
/-- `suffixHead`, `ergo-nipopow/src/nipopow_proof.rs:28`. -/
def kSuffixHead : Text := ['s', 'u', 'f', 'f', 'i', 'x', 'H', 'e', 'a', 'd']
/-- `suffixTail`, `ergo-nipopow/src/nipopow_proof.rs:31`. -/
def kSuffixTail : Text := ['s', 'u', 'f', 'f', 'i', 'x', 'T', 'a', 'i', 'l']
/-- `transactions`, `ergo-lib/src/chain/block.rs:17`. -/
def kTransactions : Text := ['t', 'r', 'a', 'n', 's', 'a', 'c', 't', 'i', 'o', 'n', 's']
/-- `blockTransactions`, `ergo-lib/src/chain/block.rs:27`. -/
def kBlockTransactions : Text := ['b', 'l', 'o', 'c', 'k', 'T', 'r', 'a', 'n', 's', 'a', 'c', 't', 'i', 'o', 'n', 's']
/-! ## Numbers of any size -/

namespace Json

/-- The digit loop of `BigUint::from_str_radix(_, 10)` (crate `num-bigint` 0.4): underscores are skipped, for
`ergo-chain-types/src/json/autolykos_solution.rs:51, 64`. -/
def bigDigits : Nat → Text → Option Nat
  | acc, [] => some acc
  | acc, c :: cs =>
    if c = '_' then bigDigits acc cs
    else match digitVal c with
      | none => none
      | some d => bigDigits (10 * acc + d) cs

/-- `BigUint::from_str` behind its optional `+`: not empty, no leading underscore, for `ergo-chain-types/src/json/autolykos_solution.rs:51,
64`. -/
def bigUnsigned (s : Text) : Option Nat :=
  match s with
  | [] => none
  | c :: cs => if c = '_' then none else bigDigits 0 (c :: cs)

/-- `BigUint::from_str`: one leading `+` is allowed, used at `ergo-chain-types/src/json/autolykos_solution.rs:51, 64`. -/
def bigUint (s : Text) : Option Nat :=
  match s with
  | [] => none
  | c :: cs => if c = '+' ∧ cs.head? ≠ some '+' then bigUnsigned cs else bigUnsigned (c :: cs)

/-- `BigInt::from_str` (crate `num-bigint` 0.4), used at `json/autolykos_solution.rs:51, 64`: a leading `-` and then as above, but
`-+` is refused. -/
def bigInt (s : Text) : Option Int :=
  match s with
  | [] => none
  | c :: cs =>
    if c = '-' then
      if cs.head? = some '+' then (bigUint (c :: cs)).map fun (n : Nat) => -(n : Int) else (bigUint cs).map fun (n : Nat) => -(n : Int)
    else (bigUint (c :: cs)).map fun (n : Nat) => (n : Int)

/-- `BigInt::to_string`, `ergo-chain-types/src/json/autolykos_solution.rs:31`. -/
def bigText (i : Int) : Text := if i < 0 then '-' :: decimal i.natAbs else decimal i.natAbs

/-- `Digest<N>` (`ergo-chain-types/src/digest32.rs:15-24`, `base16_bytes.rs:64-70`). -/
def readDigestN (n : Nat) (j : Json) : Outcome Bytes := do
  let b ← readHex j
  if b.length = n then .ok b else .err

/-- An `Option` field read by `f`, e.g. `ergo-chain-types/src/header.rs:203-230`. -/
def readOpt {α : Type} (f : Json → Outcome α) : Option Json → Outcome (Option α)
  | none => .ok none
  | some j => do
    let a ← f j
    pure (some a)

/-- A field with `#[serde(default)]` and its own reader: the default only when the field is absent, so `null` goes to the reader,
`ergo-chain-types/src/header.rs:203-230`. -/
def dflt (names : List Text) (o : List (Text × Json)) : Outcome (Option Json) :=
  match named names o with
  | [] => .ok none
  | [j] => .ok (some j)
  | _ => .err

/-- `Serialize for Option<T>`, of the fields at `ergo-chain-types/src/header.rs:203-230`. -/
def writeOpt {α : Type} (f : α → Json) : Option α → Json
  | none => .null
  | some a => f a

end Json

/-! ## Votes -/

/-- `Serialize for Votes`, `ergo-chain-types/src/votes.rs:8-16, 50-54`. -/
def writeVotes (v : Bytes) : Json := .str (hexEnc v)

/-- The numbers of `Vec<serde_json::Number>`; anything else in the list is an error, `ergo-chain-types/src/json/votes.rs:16`. -/
def jsonNums : List Json → Option (List JNum)
  | [] => some []
  | .num n :: l => (jsonNums l).map (n :: ·)
  | _ :: _ => none

/-- `n.as_u64().unwrap() as u8` for every number in turn, `ergo-chain-types/src/json/votes.rs:34-42`. -/
def voteBytes : List JNum → Outcome Bytes
  | [] => .ok []
  | .nat n :: l => if n < 2 ^ 64 then do
      let r ← voteBytes l
      pure (BitVec.ofNat 8 n :: r)
    else .panic
  | _ :: _ => .panic

/-- `Deserialize for Votes`: `VotesEncodingVariants` and its conversions, `ergo-chain-types/src/json/votes.rs:8-46`,
`ergo-chain-types/src/votes.rs:25-32, 42-48`. -/
def readVotes : Json → Outcome Bytes
  | .str s => do
    let b ← ofOpt (hexDec s)
    if b.length = 3 then .ok b else .err
  | .arr l => do
    let ns ← ofOpt (jsonNums l)
    let b ← voteBytes ns
    if b.length = 3 then .ok b else .err
  | _ => .err

/-! ## Headers -/

section
variable {G : Type}

/-- `bigint_from_serde_json_number`, `json/autolykos_solution.rs:40-79`; `fl` is the way from the text of a number with a
fraction or an exponent through `f64` to `BigInt::from_f64`. -/
def readDistance (fl : Text → Option Int) : Json → Outcome Int
  | .str s => ofOpt (bigInt s)
  | .num (.nat n) => .ok n
  | .num (.neg n) => .ok (-n)
  | .num (.other s) => ofOpt (fl s)
  | _ => .err

/-- `bigint_as_str`, `json/autolykos_solution.rs:25-35`. -/
def writeDistance (d : Option Int) : Json := writeOpt (fun i => .str (bigText i)) d

/-- `Serialize for AutolykosSolution`, `header.rs:196-233`. -/
def writeSolution [DecidableEq G] (pc : PointCodec G) (s : AutolykosSolution G) : Json :=
  .obj [(kPk, writePoint pc s.minerPk), (kOnetime, writeOpt (writePoint pc) s.onetimePk), (kNonce, .str (hexEnc s.nonce)),
    (kDistance, writeDistance s.distance)]

/-- `Deserialize for AutolykosSolution`, `header.rs:196-233`. -/
def readSolution (fl : Text → Option Int) (pc : PointCodec G) : Json → Outcome (AutolykosSolution G)
  | .obj o => do
    let pk ← req [kPk] o >>= readPoint pc
    let w ← opt [kOnetime] o >>= readOpt (readPoint pc)
    let n ← req [kNonce] o >>= readHex
    let d ← dflt [kDistance] o >>= readOpt (readDistance fl)
    pure ⟨pk, w, n, d⟩
  | _ => .err

/-- `Serialize for Header`, `header.rs:14-54`: all fields but the last. -/
def headerFields [DecidableEq G] (pc : PointCodec G) (h : Header G) : List (Text × Json) :=
  [(kVersion, .num (.nat h.version.toNat)), (kId, .str (hexEnc h.id)), (kParentId, .str (hexEnc h.parentId)),
    (kAdProofsRoot, .str (hexEnc h.adProofsRoot)), (kStateRoot, .str (hexEnc h.stateRoot)),
    (kTransactionsRoot, .str (hexEnc h.transactionRoot)), (kTimestamp, .num (.nat h.timestamp.toNat)),
    (kNBits, .num (.nat h.nBits.toNat)), (kBlockHeight, .num (.nat h.height.toNat)),
    (kExtensionHash, .str (hexEnc h.extensionRoot)), (kPowSolutions, writeSolution pc h.solution)]

/-- `Serialize for Header`, `header.rs:14-54`. -/
def writeHeader [DecidableEq G] (pc : PointCodec G) (h : Header G) : Json :=
  .obj (headerFields pc h ++ [(kVotes, writeVotes h.votes)])

/-- `Deserialize for Header`, `header.rs:14-54`: the id is taken from the text. -/
def readHeader (fl : Text → Option Int) (pc : PointCodec G) : Json → Outcome (Header G)
  | .obj o => do
    let version ← req [kVersion] o >>= readUint (2 ^ 8)
    let id ← req [kId] o >>= readDigest
    let parentId ← req [kParentId] o >>= readDigest
    let adProofsRoot ← req [kAdProofsRoot] o >>= readDigest
    let stateRoot ← req [kStateRoot] o >>= readDigestN 33
    let transactionRoot ← req [kTransactionsRoot] o >>= readDigest
    let timestamp ← req [kTimestamp] o >>= readUint (2 ^ 64)
    let nBits ← req [kNBits] o >>= readUint (2 ^ 64)
    let height ← req [kBlockHeight] o >>= readUint (2 ^ 32)
    let extensionRoot ← req [kExtensionHash] o >>= readDigest
    let solution ← req [kPowSolutions] o >>= readSolution fl pc
    let votes ← req [kVotes] o >>= readVotes
    pure { version := BitVec.ofNat 8 version, id := id, parentId := parentId, adProofsRoot := adProofsRoot,
           stateRoot := stateRoot, transactionRoot := transactionRoot, timestamp := BitVec.ofNat 64 timestamp,
           nBits := BitVec.ofNat 64 nBits, height := BitVec.ofNat 32 height, extensionRoot := extensionRoot,
           solution := solution, votes := votes }
  | _ => .err

end

/-! ## Merkle proofs -/

/-- `Serialize_repr for NodeSide`, `merkleproof.rs:6-18`. -/
def writeSide (s : Side) : Json := .num (.nat (match s with | .left => 0 | .right => 1))

/-- `Deserialize_repr for NodeSide`, `merkleproof.rs:6-18`: a `u8` that is 0 or 1. -/
def readSide (j : Json) : Outcome Side := do
  let n ← readUint (2 ^ 8) j
  if n = 0 then .ok .left else if n = 1 then .ok .right else .err

/-- `base16::encode_lower` of the hash, or the empty string, `ergo-merkle-tree/src/json.rs:28-33, 136-140`. -/
def levelText (h : Option Bytes) : Text :=
  match h with
  | none => []
  | some b => hexEnc b

/-- The conversion of the hash, `ergo-merkle-tree/src/json.rs:12-20, 119-127`. -/
def levelHash (s : Text) : Outcome (Option Bytes) := do
  let b ← ofOpt (hexDec s)
  if b.length = 0 then .ok none else if b.length = 32 then .ok (some b) else .err

/-- `From<LevelNode> for LevelNodeJson`, `ergo-merkle-tree/src/json.rs:6-7, 26-35`. -/
def writeLevel (l : LevelNode) : Json := .arr [.str (levelText l.hash), writeSide l.side]

/-- `TryFrom<LevelNodeJson> for LevelNode`, `ergo-merkle-tree/src/json.rs:6-24`: an array of exactly two. -/
def readLevel : Json → Outcome LevelNode
  | .arr [s, k] => do
    let t ← readStr s
    let side ← readSide k
    let h ← levelHash t
    pure ⟨h, side⟩
  | _ => .err

/-- `From<MerkleProof> for MerkleProofJson`, `ergo-merkle-tree/src/json.rs:37-44, 72-79`. -/
def writeProof (p : Proof) : Json :=
  .obj [(kLeafData, .str (hexEnc p.leafData)), (kLevels, .arr (p.levels.map writeLevel))]

/-- `TryFrom<MerkleProofJson> for MerkleProof`, `ergo-merkle-tree/src/json.rs:37-44, 59-70`. -/
def readProof : Json → Outcome Proof
  | .obj o => do
    let d ← req [kLeafData] o >>= readHex
    let ls ← req [kLevels] o >>= readArr readLevel
    pure ⟨d, ls⟩
  | _ => .err

/-- `From<BatchMerkleProofIndex> for IndexJson`, `ergo-merkle-tree/src/json.rs:81-94`. -/
def writeIndexed (x : Indexed) : Json := .obj [(kIndex, .num (.nat x.index)), (kDigest, .str (hexEnc x.hash))]

/-- `TryFrom<IndexJson> for BatchMerkleProofIndex`, `ergo-merkle-tree/src/json.rs:81-85, 96-107`. -/
def readIndexed : Json → Outcome Indexed
  | .obj o => do
    let i ← req [kIndex] o >>= readUint (2 ^ 64)
    let h ← req [kDigest] o >>= readDigest
    pure ⟨i, h⟩
  | _ => .err

/-- `From<LevelNode> for BatchLevelNodeJson`, `ergo-merkle-tree/src/json.rs:110-114, 133-143`. -/
def writeBatchLevel (l : LevelNode) : Json := .obj [(kDigest, .str (levelText l.hash)), (kSide, writeSide l.side)]

/-- `TryFrom<BatchLevelNodeJson> for LevelNode`, `ergo-merkle-tree/src/json.rs:110-131`. -/
def readBatchLevel : Json → Outcome LevelNode
  | .obj o => do
    let t ← req [kDigest] o >>= readStr
    let side ← req [kSide] o >>= readSide
    let h ← levelHash t
    pure ⟨h, side⟩
  | _ => .err

/-- `From<BatchMerkleProof> for BatchMerkleProofJson`, `ergo-merkle-tree/src/json.rs:144-148, 166-176`. -/
def writeBatch (p : Batch) : Json :=
  .obj [(kIndices, .arr (p.indices.map writeIndexed)), (kProofs, .arr (p.proofs.map writeBatchLevel))]

/-- `TryFrom<BatchMerkleProofJson> for BatchMerkleProof`, `ergo-merkle-tree/src/json.rs:144-164`. -/
def readBatch : Json → Outcome Batch
  | .obj o => do
    let i ← req [kIndices] o >>= readArr readIndexed
    let p ← req [kProofs] o >>= readArr readBatchLevel
    pure ⟨i, p⟩
  | _ => .err

/-! ## NiPoPoW proofs -/

section
variable {G : Type}

/-- `Serialize for PoPowHeader`, `nipopow_proof.rs:200-211`. -/
def writePoPow [DecidableEq G] (pc : PointCodec G) (p : PoPowHeader G) : Json :=
  .obj [(kHeader, writeHeader pc p.header), (kInterlinks, .arr (p.interlinks.map fun b => .str (hexEnc b))),
    (kInterlinksProof, writeBatch p.proof)]

/-- `Deserialize for PoPowHeader`, `nipopow_proof.rs:200-211`. -/
def readPoPow (fl : Text → Option Int) (pc : PointCodec G) : Json → Outcome (PoPowHeader G)
  | .obj o => do
    let h ← req [kHeader] o >>= readHeader fl pc
    let i ← req [kInterlinks] o >>= readArr readDigest
    let p ← req [kInterlinksProof] o >>= readBatch
    pure ⟨h, i, p⟩
  | _ => .err

/-- `Serialize for NipopowProof`, `nipopow_proof.rs:12-33`; `popow_algos` is skipped. -/
def writeNipopow [DecidableEq G] (pc : PointCodec G) (p : NipopowProof G) : Json :=
  .obj [(kParamM, .num (.nat p.m.toNat)), (kParamK, .num (.nat p.k.toNat)), (kPrefix, .arr (p.pre.map (writePoPow pc))),
    (kSuffixHead, writePoPow pc p.suffixHead), (kSuffixTail, .arr (p.suffixTail.map (writeHeader pc)))]

/-- `Deserialize for NipopowProof`, `nipopow_proof.rs:12-33`; `popow_algos` is the default. -/
def readNipopow (fl : Text → Option Int) (pc : PointCodec G) : Json → Outcome (NipopowProof G)
  | .obj o => do
    let m ← req [kParamM] o >>= readUint (2 ^ 32)
    let k ← req [kParamK] o >>= readUint (2 ^ 32)
    let pre ← req [kPrefix] o >>= readArr (readPoPow fl pc)
    let sh ← req [kSuffixHead] o >>= readPoPow fl pc
    let st ← req [kSuffixTail] o >>= readArr (readHeader fl pc)
    pure ⟨BitVec.ofNat 32 m, BitVec.ofNat 32 k, pre, sh, st⟩
  | _ => .err

end

/-! ## Blocks -/

section
variable {G B T : Type}

/-- `FullBlock` with its `BlockTransactions`, `ergo-lib/src/chain/block.rs:12-30`. -/
structure FullBlock (G B T : Type) where
  header : Header G
  transactions : List (Tx G B T)

/-- `MAX_NUM_TRANSACTIONS`, `block.rs:10`. -/
def maxNumTransactions : Nat := 10000000

/-- `Serialize for FullBlock`, `block.rs:12-30`. -/
def writeBlock [DecidableEq G] (E : Sers G B T) (ord : List (Text × Json) → List (Text × Json)) (b : FullBlock G B T) :
    Outcome Json := do
  let ts ← writeMany (writeTx E ord) b.transactions
  pure (.obj [(kHeader, writeHeader E.pc b.header), (kBlockTransactions, .obj [(kTransactions, .arr ts)])])

/-- `Deserialize for BlockTransactions`, `block.rs:12-18`: between one and ten million transactions. -/
def readBlockTxs [DecidableEq G] (E : Sers G B T) (tp : Bytes → Option T) : Json → Outcome (List (Tx G B T))
  | .obj o => do
    let ts ← req [kTransactions] o >>= readArr (readTx E tp)
    if 1 ≤ ts.length ∧ ts.length ≤ maxNumTransactions then .ok ts else .err
  | _ => .err

/-- `Deserialize for FullBlock`, `block.rs:20-30`. -/
def readBlock [DecidableEq G] (fl : Text → Option Int) (E : Sers G B T) (tp : Bytes → Option T) :
    Json → Outcome (FullBlock G B T)
  | .obj o => do
    let h ← req [kHeader] o >>= readHeader fl E.pc
    let ts ← req [kBlockTransactions] o >>= readBlockTxs E tp
    pure ⟨h, ts⟩
  | _ => .err

end
end Verif
