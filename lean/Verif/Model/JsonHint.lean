import Verif.Model.Json
import Verif.Model.MultiSig

/-!
# JSON forms of propositions and hints

Source: `ergotree-ir/src/chain/json/sigma_protocol.rs`, `ergo-chain-types/src/ec_point.rs`,
`ergotree-interpreter/src/json/hint.rs`, `ergotree-interpreter/src/sigma_protocol/{challenge,fiat_shamir,wscalar,unchecked_tree}.rs`,
`ergotree-interpreter/src/sigma_protocol/prover/hint.rs`, `ergo-lib/src/chain/json/hint.rs`.

Conventions as in `Model/Json.lean`.  An enum with `serde(tag = …)` is read from an object whose tag is a text, given once, together
with the fields of the variant; unknown fields are ignored.  Simplifications: the other forms that derived readers of such enums accept
(an array, and inside another such enum the number of the variant instead of its name) are errors here.
-/

namespace Verif.Json
open Sigma

/-- Field `op`, `ergotree-ir/src/chain/json/sigma_protocol.rs:19`. -/
def kOp : Text := ['o', 'p']
/-- Field `condition`, `sigma_protocol.rs:32, 34`. -/
def kCondition : Text := ['c', 'o', 'n', 'd', 'i', 't', 'i', 'o', 'n']
/-- Field `args`, `sigma_protocol.rs:36-40`. -/
def kArgs : Text := ['a', 'r', 'g', 's']
/-- Fields `k`, `g`, `h`, `u`, `v`, `sigma_protocol.rs:23-40`. -/
def kK : Text := ['k']
/-- See `kK`, `ergotree-ir/src/chain/json/sigma_protocol.rs:23-40`. -/
def kG : Text := ['g']
/-- See `kK`, `ergotree-ir/src/chain/json/sigma_protocol.rs:23-40`. -/
def kH : Text := ['h']
/-- See `kK`, `ergotree-ir/src/chain/json/sigma_protocol.rs:23-40`. -/
def kU : Text := ['u']
/-- See `kK`, `ergotree-ir/src/chain/json/sigma_protocol.rs:23-40`. -/
def kV : Text := ['v']
/-- Tag `205`, `sigma_protocol.rs:22`. -/
def tDlog : Text := ['2', '0', '5']
/-- Tag `206`, `sigma_protocol.rs:24`. -/
def tDht : Text := ['2', '0', '6']
/-- Tag `300`, `sigma_protocol.rs:31`. -/
def tFalse : Text := ['3', '0', '0']
/-- Tag `301`, `sigma_protocol.rs:33`. -/
def tTrue : Text := ['3', '0', '1']
/-- Tag `150`, `sigma_protocol.rs:35`. -/
def tAnd : Text := ['1', '5', '0']
/-- Tag `151`, `sigma_protocol.rs:37`. -/
def tOr : Text := ['1', '5', '1']
/-- Tag `152`, `sigma_protocol.rs:39`. -/
def tThr : Text := ['1', '5', '2']
/-- Field `pubkey`, `ergotree-interpreter/src/json/hint.rs:48`. -/
def kPubkey : Text := ['p', 'u', 'b', 'k', 'e', 'y']
/-- Field `challenge`, `json/hint.rs:50`. -/
def kChallenge : Text := ['c', 'h', 'a', 'l', 'l', 'e', 'n', 'g', 'e']
/-- Field `proof`, `json/hint.rs:52`. -/
def kProof : Text := ['p', 'r', 'o', 'o', 'f']
/-- Field `position`, `json/hint.rs:54`. -/
def kPosition : Text := ['p', 'o', 's', 'i', 't', 'i', 'o', 'n']
/-- Tag `hint`, `sigma_protocol/prover/hint.rs:76, 162`. -/
def kHint : Text := ['h', 'i', 'n', 't']
/-- Tag `type` of a commitment, `sigma_protocol.rs:47`. -/
def kType : Text := ['t', 'y', 'p', 'e']
/-- Field `a`, `dlog_protocol.rs:13`, `dht_protocol.rs:13`. -/
def kA : Text := ['a']
/-- Field `b`, `dht_protocol.rs:15`. -/
def kB : Text := ['b']
/-- Field `secret`, `prover/hint.rs:133`. -/
def kSecret : Text := ['s', 'e', 'c', 'r', 'e', 't']
/-- Variant `dlog`, `sigma_protocol.rs:51`. -/
def vDlog : Text := ['d', 'l', 'o', 'g']
/-- Variant `dht`, `sigma_protocol.rs:54`. -/
def vDht : Text := ['d', 'h', 't']
/-- Variant `proofReal`, `prover/hint.rs:81`. -/
def vProofReal : Text := ['p', 'r', 'o', 'o', 'f', 'R', 'e', 'a', 'l']
/-- Variant `proofSimulated`, `prover/hint.rs:85`. -/
def vProofSimulated : Text := ['p', 'r', 'o', 'o', 'f', 'S', 'i', 'm', 'u', 'l', 'a', 't', 'e', 'd']
/-- Variant `cmtWithSecret`, `prover/hint.rs:168`. -/
def vCmtWithSecret : Text := ['c', 'm', 't', 'W', 'i', 't', 'h', 'S', 'e', 'c', 'r', 'e', 't']
/-- Variant `cmtReal`, `prover/hint.rs:171`. -/
def vCmtReal : Text := ['c', 'm', 't', 'R', 'e', 'a', 'l']
/-- Variant `cmtSimulated`, `prover/hint.rs:174`. -/
def vCmtSimulated : Text := ['c', 'm', 't', 'S', 'i', 'm', 'u', 'l', 'a', 't', 'e', 'd']
/-- Field `secretHints`, `ergo-lib/src/chain/json/hint.rs:10`. -/
def kSecretHints : Text := ['s', 'e', 'c', 'r', 'e', 't', 'H', 'i', 'n', 't', 's']
/-- Field `publicHints`, `ergo-lib/src/chain/json/hint.rs:12`. -/
def kPublicHints : Text := ['p', 'u', 'b', 'l', 'i', 'c', 'H', 'i', 'n', 't', 's']

section
variable {G : Type} [DecidableEq G] {q : Nat}

/-! ## Propositions -/

/-- `From<EcPoint> for String`, `ec_point.rs:60-68`. -/
def writePoint (pc : PointCodec G) (g : G) : Json := .str (hexEnc (putPoint pc g))

/-- `TryFrom<String> for EcPoint`, `ec_point.rs:44-58`; bytes behind the point are ignored. -/
def readPoint (pc : PointCodec G) (j : Json) : Outcome G := do
  let b ← readHex j
  let p ← ofOpt (getPoint pc b)
  pure p.1

mutual
/-- `From<SigmaBoolean> for SigmaBooleanJson`, `sigma_protocol.rs:43-93`. -/
def writeSB (pc : PointCodec G) : SigmaBoolean G → Json
  | .trivial true => .obj [(kOp, .str tTrue), (kCondition, .bool true)]
  | .trivial false => .obj [(kOp, .str tFalse), (kCondition, .bool false)]
  | .dlog h => .obj [(kOp, .str tDlog), (kH, writePoint pc h)]
  | .dht g h u v =>
    .obj [(kOp, .str tDht), (kG, writePoint pc g), (kH, writePoint pc h), (kU, writePoint pc u), (kV, writePoint pc v)]
  | .cand l => .obj [(kOp, .str tAnd), (kArgs, .arr (writeSBs pc l))]
  | .cor l => .obj [(kOp, .str tOr), (kArgs, .arr (writeSBs pc l))]
  | .cth k l => .obj [(kOp, .str tThr), (kK, .num (.nat k.toNat)), (kArgs, .arr (writeSBs pc l))]
/-- `.into_iter().map(Into::into).collect()`, `ergotree-ir/src/chain/json/sigma_protocol.rs:43-93`. -/
def writeSBs (pc : PointCodec G) : List (SigmaBoolean G) → List Json
  | [] => []
  | a :: l => writeSB pc a :: writeSBs pc l
end

omit [DecidableEq G] in
theorem named_mem {names : List Text} {o : List (Text × Json)} {j : Json} (h : j ∈ named names o) : ∃ k, (k, j) ∈ o := by
  unfold named at h
  obtain ⟨p, hp, e⟩ := List.mem_map.1 h
  exact ⟨p.1, by rw [← e]; exact (List.mem_filter.1 hp).1⟩

omit [DecidableEq G] in
theorem req_size {names : List Text} {o : List (Text × Json)} {l : List Json} (h : req names o = .ok (.arr l)) :
    sizeOf l < sizeOf o := by
  unfold req at h
  split at h
  · rename_i j hj
    cases h
    obtain ⟨k, hk⟩ := named_mem (names := names) (o := o) (j := .arr l) (by rw [hj]; simp)
    have := List.sizeOf_lt_of_mem hk
    simp at this
    omega
  · cases h

/-- `SigmaConjectureItems::try_from`: 2 to 255 items, `sigma_boolean.rs:29`. -/
def sbItems (l : List (SigmaBoolean G)) : Outcome (List (SigmaBoolean G)) :=
  if 2 ≤ l.length ∧ l.length ≤ 255 then .ok l else .err

/-- `bool`, of the field at `ergotree-ir/src/chain/json/sigma_protocol.rs:18-41`. -/
def readBool : Json → Outcome Bool
  | .bool b => .ok b
  | _ => .err

mutual
/-- `Deserialize for SigmaBooleanJson` and `TryFrom<SigmaBooleanJson> for SigmaBoolean`, `sigma_protocol.rs:18-41, 95-133`. -/
def readSB (pc : PointCodec G) : Json → Outcome (SigmaBoolean G)
  | .obj o =>
    match req [kOp] o with
    | .ok (.str op) =>
      if op = tDlog then do
        let h ← req [kH] o >>= readPoint pc
        pure (.dlog h)
      else if op = tDht then do
        let g ← req [kG] o >>= readPoint pc
        let h ← req [kH] o >>= readPoint pc
        let u ← req [kU] o >>= readPoint pc
        let v ← req [kV] o >>= readPoint pc
        pure (.dht g h u v)
      else if op = tFalse ∨ op = tTrue then do
        let b ← req [kCondition] o >>= readBool
        pure (.trivial b)
      else if op = tAnd ∨ op = tOr ∨ op = tThr then
        match ha : req [kArgs] o with
        | .ok (.arr l) => do
          let items ← readSBs pc l
          let items ← sbItems items
          if op = tAnd then pure (.cand items)
          else if op = tOr then pure (.cor items)
          else do
            let k ← req [kK] o >>= readUint 256
            pure (.cth (BitVec.ofNat 8 k) items)
        | _ => .err
      else .err
    | _ => .err
  | _ => .err
termination_by j => sizeOf j
decreasing_by
  have := req_size ha
  simp
  omega
/-- `Vec<SigmaBooleanJson>` and `.map(TryInto::try_into).collect()`, `ergotree-ir/src/chain/json/sigma_protocol.rs:95-133`. -/
def readSBs (pc : PointCodec G) : List Json → Outcome (List (SigmaBoolean G))
  | [] => .ok []
  | j :: l => do
    let a ← readSB pc j
    let r ← readSBs pc l
    pure (a :: r)
termination_by l => sizeOf l
end

/-! ## Hints -/

/-- `From<NodePosition> for NodePositionJson`, `json/hint.rs:20-30`. -/
def writePos : Position → Text
  | [] => []
  | [n] => decimal n
  | n :: m :: l => decimal n ++ '-' :: writePos (m :: l)

/-- `str::split('-')`, `ergotree-interpreter/src/json/hint.rs:39`. -/
def splitDash : Text → List Text
  | [] => [[]]
  | c :: cs =>
    if c = '-' then [] :: splitDash cs
    else match splitDash cs with
      | [] => [[c]]
      | s :: r => (c :: s) :: r

/-- `.map(usize::from_str).collect()`, `json/hint.rs:38-41`; `usize` has 64 bits. -/
def parseAllUint : List Text → Option (List Nat)
  | [] => some []
  | s :: l => do
    let n ← parseUint (2 ^ 64) s
    let r ← parseAllUint l
    pure (n :: r)

/-- `TryFrom<NodePositionJson> for NodePosition`, `json/hint.rs:32-44`. -/
def readPos (j : Json) : Outcome Position := do
  let s ← readStr j
  ofOpt (parseAllUint (splitDash s))

/-- `FiatShamirHash`: `TryFrom<Base16DecodedBytes>`, `fiat_shamir.rs:55-62`. -/
def readChallengeJ (j : Json) : Outcome Challenge := do
  let b ← readHex j
  if h : b.length = 24 then .ok ⟨b, h⟩ else .err

/-- `Wscalar`: `TryFrom<Base16DecodedBytes>`, `wscalar.rs:66-73`. -/
def readWscalar (j : Json) : Outcome (ZMod q) := do
  let b ← readHex j
  if b.length = 32 then .ok (scalarOfBytes b) else .err

/-- `FirstProverMessage`, `sigma_protocol.rs:44-56`, flattened into the hint. -/
def writeMsg (pc : PointCodec G) : Msg G → List (Text × Json)
  | .dlog a => [(kType, .str vDlog), (kA, writePoint pc a)]
  | .dht a b => [(kType, .str vDht), (kA, writePoint pc a), (kB, writePoint pc b)]

/-- See `writeMsg`, `ergotree-interpreter/src/sigma_protocol.rs:44-56`. -/
def readMsg (pc : PointCodec G) (o : List (Text × Json)) : Outcome (Msg G) := do
  let ty ← req [kType] o >>= readStr
  if ty = vDlog then do
    let a ← req [kA] o >>= readPoint pc
    pure (.dlog a)
  else if ty = vDht then do
    let a ← req [kA] o >>= readPoint pc
    let b ← req [kB] o >>= readPoint pc
    pure (.dht a b)
  else .err

/-- `Serialize for Hint`, `prover/hint.rs:14-177`, `unchecked_tree.rs:64-69`. -/
def writeHint (pc : PointCodec G) : Hint G q → Outcome Json
  | .realProof i e t pos => do
    let bs ← serializeSig t
    pure (.obj [(kHint, .str vProofReal), (kPubkey, writeSB pc i), (kChallenge, .str (hexEnc e.1)), (kProof, .str (hexEnc bs)),
      (kPosition, .str (writePos pos))])
  | .simulatedProof i e t pos => do
    let bs ← serializeSig t
    pure (.obj [(kHint, .str vProofSimulated), (kPubkey, writeSB pc i), (kChallenge, .str (hexEnc e.1)),
      (kProof, .str (hexEnc bs)), (kPosition, .str (writePos pos))])
  | .ownCommitment i r m pos =>
    .ok (.obj ((kHint, .str vCmtWithSecret) :: (kPubkey, writeSB pc i) :: (kSecret, .str (hexEnc (scalarBytes r))) ::
      (writeMsg pc m ++ [(kPosition, .str (writePos pos))])))
  | .realCommitment i m pos =>
    .ok (.obj ((kHint, .str vCmtReal) :: (kPubkey, writeSB pc i) :: (writeMsg pc m ++ [(kPosition, .str (writePos pos))])))
  | .simulatedCommitment i m pos =>
    .ok (.obj ((kHint, .str vCmtSimulated) :: (kPubkey, writeSB pc i) :: (writeMsg pc m ++ [(kPosition, .str (writePos pos))])))

/-- `RealSecretProofJson`, `SimulatedSecretProofJson` and their conversions, `json/hint.rs:46-96`. -/
def readProven (pc : PointCodec G) (o : List (Text × Json)) :
    Outcome (SigmaBoolean G × Challenge × Unchecked G q × Position) := do
  let i ← req [kPubkey] o >>= readSB pc
  let e ← req [kChallenge] o >>= readChallengeJ
  let bs ← req [kProof] o >>= readHex
  let pos ← req [kPosition] o >>= readPos
  let t ← parseSigComputeChallenges i bs
  pure (i, e, t, pos)

/-- `Deserialize for Hint`: `Hint` is untagged and tries `SecretProven` before `CommitmentHint`; their tags differ,
`prover/hint.rs:14-177`. -/
def readHint (pc : PointCodec G) : Json → Outcome (Hint G q)
  | .obj o => do
    let tag ← req [kHint] o >>= readStr
    if tag = vProofReal then do
      let x ← readProven pc o
      pure (.realProof x.1 x.2.1 x.2.2.1 x.2.2.2)
    else if tag = vProofSimulated then do
      let x ← readProven pc o
      pure (.simulatedProof x.1 x.2.1 x.2.2.1 x.2.2.2)
    else do
      let i ← req [kPubkey] o >>= readSB pc
      let m ← readMsg pc o
      let pos ← req [kPosition] o >>= readPos
      if tag = vCmtWithSecret then do
        let r ← req [kSecret] o >>= readWscalar
        pure (.ownCommitment i r m pos)
      else if tag = vCmtReal then pure (.realCommitment i m pos)
      else if tag = vCmtSimulated then pure (.simulatedCommitment i m pos)
      else .err
  | _ => .err

/-! ## Bags of hints -/

/-- `Serialize for HashMap<usize, Vec<Hint>>`, in the order of the list, `ergo-lib/src/chain/json/hint.rs:11, 13`. -/
def writeHintMap (pc : PointCodec G) : FMap Nat (List (Hint G q)) → Outcome (List (Text × Json))
  | [] => .ok []
  | p :: l => do
    let hs ← writeMany (writeHint pc) p.2
    let r ← writeHintMap pc l
    pure ((decimal p.1, .arr hs) :: r)

/-- A key of a map with `usize` keys: `serde_json` reads a JSON number, here an integer without sign and leading zeros,
`ergo-lib/src/chain/json/hint.rs:11, 13`. -/
def readIndex (s : Text) : Option Nat :=
  match parseUint (2 ^ 64) s with
  | some n => if s = decimal n then some n else none
  | none => none

/-- `Deserialize for HashMap<usize, Vec<Hint>>`, `ergo-lib/src/chain/json/hint.rs:11, 13`. -/
def readHintMap (pc : PointCodec G) : List (Text × Json) → FMap Nat (List (Hint G q)) → Outcome (FMap Nat (List (Hint G q)))
  | [], m => .ok m
  | p :: l, m => do
    let i ← ofOpt (readIndex p.1)
    let hs ← readArr (readHint pc) p.2
    readHintMap pc l (m.insert i hs)

/-- An object, read for `ergo-lib/src/chain/json/hint.rs:11, 13`. -/
def readObj : Json → Outcome (List (Text × Json))
  | .obj o => .ok o
  | _ => .err

/-- `From<TransactionHintsBag> for TransactionHintsBagJson`, `ergo-lib/src/chain/json/hint.rs:16-33`; `ord` is the order in which the
hash maps are iterated. -/
def writeTxHints (pc : PointCodec G) (ord : List (Text × Json) → List (Text × Json)) (b : TxHints G q) : Outcome Json := do
  let s ← writeHintMap pc b.secretHints
  let p ← writeHintMap pc b.publicHints
  pure (.obj [(kSecretHints, .obj (ord s)), (kPublicHints, .obj (ord p))])

/-- `From<TransactionHintsBagJson> for TransactionHintsBag`, `ergo-lib/src/chain/json/hint.rs:8-14, 35-50`. -/
def readTxHints (pc : PointCodec G) : Json → Outcome (TxHints G q)
  | .obj o => do
    let so ← req [kSecretHints] o >>= readObj
    let s ← readHintMap pc so []
    let po ← req [kPublicHints] o >>= readObj
    let p ← readHintMap pc po []
    pure ⟨s, p⟩
  | _ => .err

end
end Verif.Json
