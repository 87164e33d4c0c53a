import Verif.Model.Vlq
import Verif.Model.EcPoint
import Verif.Model.BigInt
import Verif.Model.Hash

/-!
# Block headers

Source: `ergo-chain-types/src/header.rs`, `preheader.rs`, `votes.rs`, `digest32.rs`.
-/

namespace Verif

/-- `AutolykosSolution`, `ergo-chain-types/src/header.rs:198-233`. -/
structure AutolykosSolution (G : Type) where
  minerPk : G
  onetimePk : Option G
  nonce : Bytes
  distance : Option Int
  deriving DecidableEq

/-- `Header`, `ergo-chain-types/src/header.rs:16-54`.  Fixed-size arrays are byte lists (their sizes are part of
`Spec.GoodBlockHeader`). -/
structure Header (G : Type) where
  version : Byte
  id : Bytes
  parentId : Bytes
  adProofsRoot : Bytes
  stateRoot : Bytes
  transactionRoot : Bytes
  timestamp : BitVec 64
  nBits : BitVec 64
  height : BitVec 32
  extensionRoot : Bytes
  solution : AutolykosSolution G
  votes : Bytes
  deriving DecidableEq

/-- `PreHeader`, `ergo-chain-types/src/preheader.rs:7-22`. -/
structure PreHeader (G : Type) where
  version : Byte
  parentId : Bytes
  timestamp : BitVec 64
  nBits : BitVec 64
  height : BitVec 32
  minerPk : G
  votes : Bytes
  deriving DecidableEq

/-- `From<Header> for PreHeader`, `ergo-chain-types/src/preheader.rs:24-36`. -/
def PreHeader.ofHeader {G : Type} (h : Header G) : PreHeader G :=
  { version := h.version, parentId := h.parentId, timestamp := h.timestamp, nBits := h.nBits, height := h.height,
    minerPk := h.solution.minerPk, votes := h.votes }

namespace Header
variable {G : Type}

/-- `Header::serialize_without_pow`, `ergo-chain-types/src/header.rs:58-88`. -/
def serWithoutPow (h : Header G) : Bytes :=
  putU8 h.version ++ h.parentId ++ h.adProofsRoot ++ h.transactionRoot ++ h.stateRoot ++ putU64 h.timestamp ++
    h.extensionRoot ++ putU32Be (h.nBits.setWidth 32) ++ putU32 h.height ++ h.votes ++
    (if 1 < h.version.toNat then putI8 0 else [])

end Header

/-- `AutolykosSolution::serialize_bytes`, `ergo-chain-types/src/header.rs:237-267`. -/
def AutolykosSolution.ser {G : Type} [DecidableEq G] (pc : PointCodec G) (version : Byte) (s : AutolykosSolution G) :
    Outcome Bytes :=
  if version = 1 then
    match s.onetimePk with
    | none => .err
    | some w =>
      match s.distance with
      | none => .err
      | some d => .ok (putPoint pc s.minerPk ++ putPoint pc w ++ s.nonce ++
          putU8 (BitVec.ofNat 8 (toSignedBe d).length) ++ toSignedBe d)
  else .ok (putPoint pc s.minerPk ++ s.nonce)

namespace Header
variable {G : Type}

/-- `Header::scorex_serialize`, `ergo-chain-types/src/header.rs:92-99`. -/
def ser [DecidableEq G] (pc : PointCodec G) (h : Header G) : Outcome Bytes := do
  let s ← h.solution.ser pc h.version
  pure (h.serWithoutPow ++ s)

/-- The skipped "new fields", `ergo-chain-types/src/header.rs:126-133`. -/
def skipFields (version : Byte) : Parser Unit :=
  if 1 < version.toNat then do
    let n ← getU8
    if 0 < n.toNat then do
      let _ ← readExact n.toNat
      pure ()
    else pure ()
  else pure ()

/-- The proof-of-work solution, `ergo-chain-types/src/header.rs:136-164`. -/
def parseSolution (pc : PointCodec G) (version : Byte) : Parser (AutolykosSolution G) :=
  if version = 1 then do
    let pk ← getPoint pc
    let w ← getPoint pc
    let nonce ← readExact 8
    let n ← getU8
    let d ← readExact n.toNat
    pure { minerPk := pk, onetimePk := some w, nonce := nonce, distance := some (signedOfBe d) }
  else do
    let pk ← getPoint pc
    let nonce ← readExact 8
    pure { minerPk := pk, onetimePk := none, nonce := nonce, distance := none }

/-- The header with the id that `scorex_parse` computes, `ergo-chain-types/src/header.rs:184-190`. -/
def withId [DecidableEq G] (H : HashFn) (pc : PointCodec G) (h : Header G) : Outcome (Header G) := do
  let s ← h.solution.ser pc h.version
  pure { h with id := H (h.serWithoutPow ++ s) }

/-- `Header::scorex_parse`, `ergo-chain-types/src/header.rs:101-191`. -/
def parse [DecidableEq G] (H : HashFn) (pc : PointCodec G) : Parser (Header G) := do
  let version ← getU8
  let parentId ← readExact 32
  let adProofsRoot ← readExact 32
  let transactionRoot ← readExact 32
  let stateRoot ← readExact 33
  let timestamp ← getU64
  let extensionRoot ← readExact 32
  let nBits ← getU32Be
  let height ← getU32
  let votes ← readExact 3
  let _ ← skipFields version
  let solution ← parseSolution pc version
  match withId H pc (G := G)
      { version := version, id := List.replicate 32 0, parentId := parentId, adProofsRoot := adProofsRoot,
        stateRoot := stateRoot, transactionRoot := transactionRoot, timestamp := timestamp, nBits := nBits.setWidth 64,
        height := height, extensionRoot := extensionRoot, solution := solution, votes := votes } with
  | .ok h => pure h
  | _ => Parser.fail

end Header
end Verif
