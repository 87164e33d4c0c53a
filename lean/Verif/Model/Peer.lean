import Verif.Model.Vlq
import Verif.Model.FMap

/-!
# Peers of the network

Source: `ergo-chain-types/src/peer_addr.rs`, `ergo-p2p/src/{protocol_version,peer_feature,peer_spec,peer_info}.rs`,
`ergo-p2p/src/peer_database.rs`, `ergo-p2p/src/peer_database/in_memory.rs`.  Strings are their UTF-8 bytes.
-/

namespace Verif

/-- `PeerAddr`, `ergo-chain-types/src/peer_addr.rs:15-18`, i.e. `std::net::SocketAddr`. -/
inductive PeerAddr where
  | v4 (a b c d : Byte) (port : BitVec 16)
  | v6 (ip : BitVec 128) (port : BitVec 16) (flow scope : BitVec 32)
  deriving DecidableEq, Repr

namespace PeerAddr

/-- `PeerAddr::ip_size`, `peer_addr.rs:22-27`. -/
def ipSize : PeerAddr → Nat
  | v4 .. => 4
  | v6 .. => 16

/-- `PeerAddr::scorex_serialize`, `peer_addr.rs:38-51`; `none` is `Err(NotSupported)`. -/
def ser : PeerAddr → Option Bytes
  | v4 a b c d port => some ([a, b, c, d] ++ putU32 (port.setWidth 32))
  | v6 .. => none

/-- The address and port of a result of `parseRaw`, `peer_addr.rs:60-62`: `try_into` refuses ports above 65535. -/
def ofRaw (x : (Byte × Byte × Byte × Byte) × BitVec 32) : Option PeerAddr :=
  if x.2.toNat < 2 ^ 16 then some (v4 x.1.1 x.1.2.1 x.1.2.2.1 x.1.2.2.2 (x.2.setWidth 16)) else none

/-- The reads of `PeerAddr::scorex_parse`, `peer_addr.rs:56-60`. -/
def parseRaw : Parser ((Byte × Byte × Byte × Byte) × BitVec 32) := do
  let a ← getU8
  let b ← getU8
  let c ← getU8
  let d ← getU8
  let port ← getU32
  pure ((a, b, c, d), port)

/-- `PeerAddr::scorex_parse`, `peer_addr.rs:53-63`. -/
def parse : Parser PeerAddr := do
  let x ← parseRaw
  Parser.ofOption (ofRaw x)

end PeerAddr

/-- `ProtocolVersion`, `protocol_version.rs:6-11`. -/
structure ProtocolVersion where
  major : Byte
  minor : Byte
  patch : Byte
  deriving DecidableEq, Repr

namespace ProtocolVersion

/-- `ProtocolVersion::INITIAL`, `protocol_version.rs:24`. -/
def initial : ProtocolVersion := ⟨0, 0, 1⟩

/-- `ProtocolVersion::scorex_serialize`, `protocol_version.rs:28-37`. -/
def ser (v : ProtocolVersion) : Bytes := putU8 v.major ++ putU8 v.minor ++ putU8 v.patch

/-- `ProtocolVersion::scorex_parse`, `protocol_version.rs:39-43`. -/
def parse : Parser ProtocolVersion := do
  let a ← getU8
  let b ← getU8
  let c ← getU8
  pure ⟨a, b, c⟩

end ProtocolVersion

/-- `PeerFeature`, `peer_feature.rs:32-36`, with `LocalAddressPeerFeature`, `:109`. -/
inductive PeerFeature where
  | localAddress (addr : PeerAddr)
  deriving DecidableEq, Repr

namespace PeerFeature

/-- `PeerFeature::id`, `peer_feature.rs:40-44`. -/
def id : PeerFeature → Byte
  | localAddress _ => 2

/-- `PeerFeature::as_local_addr`, `peer_feature.rs:48-52`. -/
def asLocalAddr : PeerFeature → Option PeerAddr
  | localAddress a => some a

/-- `PeerFeature::scorex_serialize`, `peer_feature.rs:56-67`, with `:112-119` (`none` is an `Err`). -/
def ser : PeerFeature → Option Bytes
  | localAddress a => do
    let bytes ← a.ser
    if bytes.length < 2 ^ 16 then
      some (putU8 (localAddress a).id ++ putU16 (BitVec.ofNat 16 bytes.length) ++ bytes)
    else none

/-- `PeerFeature::scorex_parse`, `peer_feature.rs:69-87`, with `:121-125`: what follows the address in the buffer is ignored. -/
def parse : Parser PeerFeature := do
  let id ← getU8
  let size ← getU16
  let buf ← readExact size.toNat
  if id = 2 then
    match PeerAddr.parse buf with
    | some (a, _) => pure (localAddress a)
    | none => Parser.fail
  else Parser.fail

end PeerFeature

/-- `PeerSpec`, `peer_spec.rs:13-21`. -/
structure PeerSpec where
  agentName : Bytes
  version : ProtocolVersion
  nodeName : Bytes
  declaredAddr : Option PeerAddr
  features : Option (List PeerFeature)
  deriving DecidableEq, Repr

namespace PeerSpec

/-- `PeerSpec::local_addr`, `peer_spec.rs:42-50`. -/
def localAddr (s : PeerSpec) : Option PeerAddr := do
  let l ← s.features
  l.findSome? PeerFeature.asLocalAddr

/-- `PeerSpec::addr`, `peer_spec.rs:59-61`. -/
def addr (s : PeerSpec) : Option PeerAddr :=
  match s.declaredAddr with
  | some a => some a
  | none => s.localAddr

/-- `PeerSpec::reachable_peer`, `peer_spec.rs:53-55`. -/
def reachable (s : PeerSpec) : Bool := s.addr.isSome

/-- `feats.iter().try_for_each(|f| f.scorex_serialize(w))`, `peer_spec.rs:84`. -/
def serFeatures : List PeerFeature → Option Bytes
  | [] => some []
  | f :: l => do
    let a ← f.ser
    let b ← serFeatures l
    some (a ++ b)

/-- The value of `put_option`, `peer_spec.rs:73-80`. -/
def serDeclared : Option PeerAddr → Option Bytes
  | none => some (putU8 0)
  | some a => do
    let b ← a.ser
    some (putU8 1 ++ (putU8 (BitVec.ofNat 8 a.ipSize) ++ b))

/-- `PeerSpec::scorex_serialize`, `peer_spec.rs:65-90`. -/
def ser (s : PeerSpec) : Option Bytes := do
  let agent ← putShortString s.agentName
  let node ← putShortString s.nodeName
  let decl ← serDeclared s.declaredAddr
  let feats ← (match s.features with
    | some l => (serFeatures l).map fun b => putU8 (BitVec.ofNat 8 l.length) ++ b
    | none => some (putU8 0))
  some (agent ++ s.version.ser ++ node ++ decl ++ feats)

/-- The `get_option` of `peer_spec.rs:103-111` (`sigma-ser/src/vlq_encode.rs:245-255`), which turns every failure of the inner reader
into `None`.  A port above 65535 fails after its bytes are consumed; what is left of the stream after any other failure depends on
the reader and is given by `stuck`. -/
def getDeclared (stuck : Bytes → Bytes) : Parser (Option PeerAddr) := fun s =>
  match s with
  | [] => some (none, [])
  | tag :: s' =>
    if tag = 1 then
      match (getU8 >>= fun _ => PeerAddr.parseRaw) s' with
      | some (x, rest) => some (PeerAddr.ofRaw x, rest)
      | none => some (none, stuck s')
    else some (none, s')

/-- `PeerSpec::scorex_parse`, `peer_spec.rs:92-132`; `utf8` stands for `String::from_utf8`. -/
def parse (utf8 : Bytes → Bool) (stuck : Bytes → Bytes) : Parser PeerSpec := do
  let agent ← getShortString utf8
  if agent = [] then Parser.fail
  else do
    let version ← ProtocolVersion.parse
    let node ← getShortString utf8
    let decl ← getDeclared stuck
    let n ← getU8
    if n = 0 then pure ⟨agent, version, node, decl, none⟩
    else do
      let l ← replicateP n.toNat PeerFeature.parse
      pure ⟨agent, version, node, decl, some l⟩

end PeerSpec

/-- `ConnectionDirection`, `ergo-chain-types/src/peer_connection_dir.rs`. -/
inductive ConnectionDirection where
  | incoming
  | outgoing
  deriving DecidableEq, Repr

/-- `PeerInfo`, `peer_info.rs:8-16`. -/
structure PeerInfo where
  spec : PeerSpec
  lastHandshake : BitVec 64
  connType : Option ConnectionDirection
  deriving DecidableEq, Repr

/-- `PeerInfo::from_addr`, `peer_info.rs:39-49`; `display` is `PeerAddr`'s `Display`. -/
def PeerInfo.fromAddr (display : PeerAddr → Bytes) (unknown : Bytes) (dash : Bytes) (a : PeerAddr) : PeerInfo :=
  ⟨⟨unknown, .initial, unknown ++ dash ++ display a, some a, none⟩, 0, none⟩

/-- `InMemoryPeerDatabase`, `peer_database/in_memory.rs:8-11`. -/
abbrev PeerDb := FMap PeerAddr PeerInfo

namespace PeerDb

/-- `get_peer_by_addr`, `in_memory.rs:14-16`. -/
def getPeer (d : PeerDb) (a : PeerAddr) : Option PeerInfo := FMap.get d a

/-- `add_or_update_peer`, `in_memory.rs:18-27`: the new database and the replaced entry; `none` is `Err(NoPeerAddr)`. -/
def addOrUpdate (d : PeerDb) (p : PeerInfo) : Option (PeerDb × Option PeerInfo) :=
  match p.spec.addr with
  | some a => some (FMap.insert d a p, FMap.get d a)
  | none => none

/-- `remove_peer`, `in_memory.rs:29-35`: `none` is `Err(NotFound)`. -/
def remove (d : PeerDb) (a : PeerAddr) : Option PeerDb :=
  match FMap.get d a with
  | some _ => some (FMap.erase d a)
  | none => none

end PeerDb
end Verif
