import Verif.Model.Json
import Verif.Model.Peer

/-!
# Answers of nodes

Source: `ergo-rest/src/{node_info,peer_info}.rs`, `ergo-chain-types/src/{peer_addr,peer_connection_dir}.rs`.  As in `Model/Json.lean` the
readers and writers are functions on JSON values.  Simplification: the reader of an address asks for a borrowed string
(`peer_info.rs:35`), which `serde_json` cannot give if the text of the JSON string has escapes; this is not visible in a JSON value.
-/

namespace Verif
open Json

/-- `NodeInfo`, `node_info.rs:8-17`. -/
structure NodeInfo where
  name : Text
  appVersion : Text
  deriving DecidableEq

/-- `Ord for String`, used at `node_info.rs:22`: bytewise, which for UTF-8 is the order of the scalar values. -/
def textLt : Text → Text → Bool
  | _, [] => false
  | [], _ :: _ => true
  | a :: s, b :: t => if a.toNat < b.toNat then true else if b.toNat < a.toNat then false else textLt s t

/-- `4.0.100`, `ergo-rest/src/node_info.rs:21`. -/
def eip37Version : Text := ['4', '.', '0', '.', '1', '0', '0']

/-- `NodeInfo::is_at_least_version_4_0_100`, `node_info.rs:20-24`. -/
def NodeInfo.isAtLeast40100 (n : NodeInfo) : Bool := !textLt n.appVersion eip37Version

/-- `name`, `ergo-rest/src/node_info.rs:12`, `ergo-rest/src/peer_info.rs:22`. -/
def kName : Text := ['n', 'a', 'm', 'e']
/-- `appVersion`, `ergo-rest/src/node_info.rs:14`. -/
def kAppVersion : Text := ['a', 'p', 'p', 'V', 'e', 'r', 's', 'i', 'o', 'n']
/-- `address`, `ergo-rest/src/peer_info.rs:11`. -/
def kAddress : Text := ['a', 'd', 'd', 'r', 'e', 's', 's']
/-- `lastMessage`, `ergo-rest/src/peer_info.rs:16`. -/
def kLastMessage : Text := ['l', 'a', 's', 't', 'M', 'e', 's', 's', 'a', 'g', 'e']
/-- `lastHandshake`, `ergo-rest/src/peer_info.rs:19`. -/
def kLastHandshake : Text := ['l', 'a', 's', 't', 'H', 'a', 'n', 'd', 's', 'h', 'a', 'k', 'e']
/-- `connectionType`, `ergo-rest/src/peer_info.rs:24`. -/
def kConnectionType : Text := ['c', 'o', 'n', 'n', 'e', 'c', 't', 'i', 'o', 'n', 'T', 'y', 'p', 'e']
/-- `Incoming`, `ergo-chain-types/src/peer_connection_dir.rs:7`. -/
def kIncoming : Text := ['I', 'n', 'c', 'o', 'm', 'i', 'n', 'g']
/-- `Outgoing`, `ergo-chain-types/src/peer_connection_dir.rs:9`. -/
def kOutgoing : Text := ['O', 'u', 't', 'g', 'o', 'i', 'n', 'g']

/-- `Serialize for NodeInfo`, `node_info.rs:8-17`. -/
def writeNodeInfo (n : NodeInfo) : Json := .obj [(kName, .str n.name), (kAppVersion, .str n.appVersion)]

/-- `Deserialize for NodeInfo`, `node_info.rs:8-17`. -/
def readNodeInfo : Json → Outcome NodeInfo
  | .obj o => do
    let name ← req [kName] o >>= readStr
    let v ← req [kAppVersion] o >>= readStr
    pure ⟨name, v⟩
  | _ => .err

/-- The text form of `std::net::SocketAddr` (`FromStr` and `Display`) and the readers of URLs (crate `url`): parameters, used at
`ergo-chain-types/src/peer_addr.rs:30-34`, `ergo-rest/src/peer_info.rs:37-72`. -/
structure AddrText (U : Type) where
  read : Text → Option PeerAddr
  print : PeerAddr → Text
  url : Text → Option U

/-- `http://`, `ergo-chain-types/src/peer_addr.rs:31`. -/
def kHttp : Text := ['h', 't', 't', 'p', ':', '/', '/']

/-- `PeerAddr::as_http_url`, `peer_addr.rs:30-34`: the `unwrap` panics if the text is no URL. -/
def asHttpUrl {U : Type} (A : AddrText U) (a : PeerAddr) : Outcome U :=
  match A.url (kHttp ++ A.print a) with
  | some u => .ok u
  | none => .panic

/-- `s.split(':')`: the pieces between the colons, never empty; `rsplit` gives them in the reverse order, `ergo-rest/src/peer_info.rs:51`.
-/
def splitColon : Text → List Text
  | [] => [[]]
  | c :: cs =>
    match splitColon cs with
    | [] => [[c]]
    | p :: ps => if c = ':' then [] :: p :: ps else (c :: p) :: ps

/-- `.join(":")`, `ergo-rest/src/peer_info.rs:66`. -/
def joinColon : List Text → Text
  | [] => []
  | [p] => p
  | p :: q :: ps => p ++ ':' :: joinColon (q :: ps)

/-- The text in brackets, `peer_info.rs:60-69`; `parts` are the pieces from the right, of which there is always one (`unwrap`). -/
def bracketed (parts : List Text) : Outcome Text :=
  match parts with
  | [] => .panic
  | port :: rest => .ok ('[' :: joinColon rest.reverse ++ ']' :: ':' :: port)

/-- `parse_peer_addr_with_leading_slash` behind the reading of the string, `peer_info.rs:37-72`. -/
def parseReported {U : Type} (A : AddrText U) (s : Text) : Outcome PeerAddr :=
  let s := match s with
    | '/' :: t => t
    | s => s
  match A.read s with
  | some a => .ok a
  | none =>
    let parts := (splitColon s).reverse
    if parts.length = 2 then .err
    else do
      let t ← bracketed parts
      ofOpt (A.read t)

/-- `PeerInfo`, `ergo-rest/src/peer_info.rs:5-27`. -/
structure RestPeer where
  addr : PeerAddr
  lastMessage : BitVec 64
  lastHandshake : BitVec 64
  name : Text
  connType : Option ConnectionDirection
  deriving DecidableEq

/-- `Serialize for ConnectionDirection`, `peer_connection_dir.rs:4-10`. -/
def writeDir : ConnectionDirection → Json
  | .incoming => .str kIncoming
  | .outgoing => .str kOutgoing

/-- `Deserialize for ConnectionDirection`, `peer_connection_dir.rs:4-10`. -/
def readDir : Json → Outcome ConnectionDirection
  | .str s => if s = kIncoming then .ok .incoming else if s = kOutgoing then .ok .outgoing else .err
  | _ => .err

/-- `Serialize for PeerInfo`, `peer_info.rs:5-27`: the address is written by `Display`, without a slash. -/
def writeRestPeer {U : Type} (A : AddrText U) (p : RestPeer) : Json :=
  .obj [(kAddress, .str (A.print p.addr)), (kLastMessage, .num (.nat p.lastMessage.toNat)),
    (kLastHandshake, .num (.nat p.lastHandshake.toNat)), (kName, .str p.name),
    (kConnectionType, match p.connType with | none => .null | some d => writeDir d)]

/-- `Deserialize for PeerInfo`, `peer_info.rs:5-36`. -/
def readRestPeer {U : Type} (A : AddrText U) : Json → Outcome RestPeer
  | .obj o => do
    let s ← req [kAddress] o >>= readStr
    let a ← parseReported A s
    let m ← req [kLastMessage] o >>= readUint (2 ^ 64)
    let h ← req [kLastHandshake] o >>= readUint (2 ^ 64)
    let n ← req [kName] o >>= readStr
    let c ← opt [kConnectionType] o
    match c with
    | none => pure ⟨a, BitVec.ofNat 64 m, BitVec.ofNat 64 h, n, none⟩
    | some j => do
      let d ← readDir j
      pure ⟨a, BitVec.ofNat 64 m, BitVec.ofNat 64 h, n, some d⟩
  | _ => .err

/-- The list of peers of a node, `peer_discovery_internals.rs:23-30`: one address that cannot be read makes the whole answer an error. -/
def readPeers {U : Type} (A : AddrText U) : Json → Outcome (List RestPeer) := readArr (readRestPeer A)

end Verif
