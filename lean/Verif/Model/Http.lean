import Verif.Model.NodeResp

/-!
# Requests of the REST client

Source: `ergo-rest/src/reqwest/wasm/{client,request,body}.rs`, `ergo-rest/src/reqwest/{util,into_url}.rs`, `ergo-rest/src/api.rs`,
`ergo-rest/src/api/node.rs`, `ergo-rest/src/node_conf.rs`.

Header maps (crate `http`) are lists of names with their values.  A builder that holds an error is `none`; which error is not
modelled.  Lengths of time are in nanoseconds.  Everything up to the call of the browser's `fetch` is modelled, the answer is not.
-/

namespace Verif.Http

/-- `http::HeaderMap`, e.g. `request.rs:20`: names in lower case in order of insertion, each with at least one value. -/
abbrev HeaderMap := List (Text × List Text)

namespace HeaderMap

/-- All values of a name, as iterated at `client.rs:159, 213`. -/
def values (h : HeaderMap) (n : Text) : List Text :=
  match h with
  | [] => []
  | (k, vs) :: r => if k = n then vs else values r n

/-- `HeaderMap::insert` and `OccupiedEntry::insert`: one value replaces all values of the name, `util.rs:14, 18`, `client.rs:160, 318`. -/
def insert (h : HeaderMap) (n v : Text) : HeaderMap :=
  match h with
  | [] => [(n, [v])]
  | (k, vs) :: r => if k = n then (k, [v]) :: r else (k, vs) :: insert r n v

/-- `HeaderMap::append` and `OccupiedEntry::append`, `util.rs:24`, `request.rs:279`. -/
def append (h : HeaderMap) (n v : Text) : HeaderMap :=
  match h with
  | [] => [(n, [v])]
  | (k, vs) :: r => if k = n then (k, vs ++ [v]) :: r else (k, vs) :: append r n v

/-- `Entry::Vacant`, `client.rs:160`. -/
def vacant (h : HeaderMap) (n : Text) : Bool := !(h.any fun p => p.1 == n)

/-- `HeaderMap::iter`: the name is repeated for each value, `client.rs:159, 213, 317`. -/
def iter (h : HeaderMap) : List (Text × Text) := h.flatMap fun p => p.2.map fun v => (p.1, v)

/-- `HeaderMap::into_iter`: the name comes with the first value only, `util.rs:4-8`. -/
def intoIter (h : HeaderMap) : List (Option Text × Text) :=
  h.flatMap fun p => match p.2 with
    | [] => []
    | v :: vs => (some p.1, v) :: vs.map fun v => (none, v)

end HeaderMap

/-- The loop of `replace_headers`, `util.rs:10-30`; the entry held from the round before is its name. -/
def replaceLoop : List (Option Text × Text) → Option Text → HeaderMap → Outcome HeaderMap
  | [], _, d => .ok d
  | (some k, v) :: r, _, d => replaceLoop r (some k) (d.insert k v)
  | (none, v) :: r, some k, d => replaceLoop r (some k) (d.append k v)
  | (none, _) :: _, none, _ => .panic

/-- `replace_headers`, `util.rs:3-31`. -/
def replaceHeaders (dst src : HeaderMap) : Outcome HeaderMap := replaceLoop src.intoIter none dst

/-- `Client::merge_headers`, `client.rs:154-164`. -/
def mergeHeaders (defaults : HeaderMap) (h : HeaderMap) : HeaderMap :=
  defaults.iter.foldl (fun h p => if h.vacant p.1 then h.insert p.1 p.2 else h) h

/-- The loop of `ClientBuilder::default_headers`, `client.rs:316-321`. -/
def defaultHeaders (cfg h : HeaderMap) : HeaderMap := h.iter.foldl (fun c p => c.insert p.1 p.2) cfg

/-- `Client`, `client.rs:39-42`. -/
structure Client where
  headers : HeaderMap
  timeout : Option Nat

/-- A client by `default_headers` and at most one `timeout` on a new builder, `client.rs:298-333`: 30 seconds otherwise. -/
def clientOf (ms : List HeaderMap) (t : Option Nat) : Client where
  headers := ms.foldl defaultHeaders []
  timeout := some (t.getD 30000000000)

/-- A character of a header name, by the table of the crate `http`, for `request.rs:276`. -/
def nameChar (c : Char) : Bool :=
  ('a' ≤ c && c ≤ 'z') || ('A' ≤ c && c ≤ 'Z') || ('0' ≤ c && c ≤ '9') ||
    ['!', '#', '$', '%', '&', '\'', '*', '+', '-', '.', '^', '_', '`', '|', '~'].contains c

/-- `HeaderName::try_from`, `request.rs:276`: letters are put in lower case. -/
def headerName (s : Text) : Option Text :=
  if s ≠ [] ∧ s.length ≤ 65535 ∧ s.all nameChar = true then some (s.map Char.toLower) else none

/-- A character that `HeaderValue::from_str` and `HeaderValue::to_str` accept, `node_conf.rs:21`, `client.rs:217`. -/
def visible (c : Char) : Bool := (32 ≤ c.toNat && c.toNat < 127) || c = '\t'

/-- `HeaderValue::try_from` of a `&str` and `HeaderValue::from_str`, `request.rs:277`, `node_conf.rs:21`. -/
def headerValueStr (s : Text) : Option Text := if s.all visible then some s else none

/-- `HeaderValue::try_from` of a `String`, `request.rs:277`: also characters beyond ASCII. -/
def headerValueString (s : Text) : Option Text :=
  if s.all fun c => (32 ≤ c.toNat && c.toNat != 127) || c = '\t' then some s else none

/-- `RequestCredentials` of `web_sys`, `request.rs:328-362`. -/
inductive Creds where
  | sameOrigin
  | incl
  | omit_

/-- `Request`, `request.rs:17-25`.  The body is a sequence of bytes (no multipart forms), the URL its text. -/
structure Req where
  method : Text
  url : Text
  headers : HeaderMap
  body : Option Bytes
  cors : Bool
  creds : Option Creds
  timeout : Option Nat

/-- `Client::request`, `client.rs:124-132`, with `Request::new`, `request.rs:36-46` and `into_url`, `into_url.rs:23-29`: `hasHost` is
`Url::has_host`. -/
def Client.request (c : Client) (hasHost : Text → Bool) (method url : Text) : Option Req :=
  let req := if hasHost url then
      some { method := method, url := url, headers := [], body := none, cors := true, creds := none, timeout := none }
    else none
  match c.timeout with
  | some t => req.map fun r => { r with timeout := some t }
  | none => req

/-- `content-type`, `request.rs:190, 213`, `api.rs:14`. -/
def kContentType : Text := ['c', 'o', 'n', 't', 'e', 'n', 't', '-', 't', 'y', 'p', 'e']
/-- `authorization`, `request.rs:231`. -/
def kAuthorization : Text := ['a', 'u', 't', 'h', 'o', 'r', 'i', 'z', 'a', 't', 'i', 'o', 'n']
/-- `application/json`, `request.rs:213`, `api.rs:12, 14`. -/
def kJson : Text := ['a', 'p', 'p', 'l', 'i', 'c', 'a', 't', 'i', 'o', 'n', '/', 'j', 's', 'o', 'n']
/-- `application/x-www-form-urlencoded`, `request.rs:191`. -/
def kForm : Text := ['a', 'p', 'p', 'l', 'i', 'c', 'a', 't', 'i', 'o', 'n', '/', 'x', '-', 'w', 'w', 'w', '-', 'f', 'o', 'r', 'm', '-',
  'u', 'r', 'l', 'e', 'n', 'c', 'o', 'd', 'e', 'd']
/-- `Bearer `, `request.rs:230`. -/
def kBearer : Text := ['B', 'e', 'a', 'r', 'e', 'r', ' ']

/-- A call on a request builder, `request.rs:130-364`.  `form`, `json` and `query` carry the result of the serialization of their
argument (`none`: it fails); what a query does to the URL is a function. -/
inductive Call where
  | query (f : Option (Text → Text))
  | form (b : Option Bytes)
  | json (b : Option Bytes)
  | bearer (token : Text)
  | timeout (t : Nat)
  | body (b : Bytes)
  | header (k v : Text)
  | headers (h : HeaderMap)
  | noCors
  | creds (c : Creds)

/-- One call on a request that is fine, `request.rs:152-364`. -/
def Call.on (r : Req) : Call → Option Req
  | .query none => none
  | .query (some f) => some { r with url := f r.url }
  | .form none => none
  | .form (some b) => some { r with headers := r.headers.insert kContentType kForm, body := some b }
  | .json none => none
  | .json (some b) => some { r with headers := r.headers.insert kContentType kJson, body := some b }
  | .bearer t => match headerValueString (kBearer ++ t) with
    | some v => some { r with headers := r.headers.append kAuthorization v }
    | none => none
  | .timeout t => some { r with timeout := some t }
  | .body b => some { r with body := some b }
  | .header k v => match headerName k with
    | none => none
    | some k => match headerValueStr v with
      | none => none
      | some v => some { r with headers := r.headers.append k v }
  | .headers h => match replaceHeaders r.headers h with
    | .ok h' => some { r with headers := h' }
    | _ => none
  | .noCors => some { r with cors := false }
  | .creds c => some { r with creds := some c }

/-- One call on a builder: an error stays, `if let Ok(ref mut req) = self.request`, `request.rs:152-364`. -/
def step (b : Option Req) (c : Call) : Option Req := b.bind fun r => c.on r

/-- What the browser is asked to do, `client.rs:197-266`: the arguments of `fetch` and the length of the timer that aborts the
request. -/
structure Sent where
  method : Text
  url : Text
  headers : List (Text × Text)
  noCors : Bool
  creds : Option Creds
  body : Option Bytes
  timer : Option Int

/-- `duration.as_millis() as i32`, `client.rs:252`. -/
def timerMillis (t : Nat) : Int := (BitVec.ofNat 32 (t / 1000000)).toInt

/-- `fetch` up to the request, `client.rs:197-266`: a value that is not visible ASCII is an error. -/
def fetch (r : Req) : Option Sent :=
  if r.headers.iter.all fun p => p.2.all visible then
    some {
      method := r.method
      url := r.url
      headers := r.headers.iter
      noCors := !r.cors
      creds := r.creds
      body := match r.body with
        | some b => if b.isEmpty then none else some b
        | none => none
      timer := r.timeout.map timerMillis }
  else none

/-- `RequestBuilder::send`, `request.rs:395-398`, with `execute_request`, `client.rs:166-172`. -/
def send (c : Client) (b : Option Req) : Option Sent :=
  b.bind fun r => fetch { r with headers := mergeHeaders c.headers r.headers }

/-! ## Requests to a node -/

/-- `NodeConf`, `node_conf.rs:8-15`. -/
structure NodeConf where
  addr : PeerAddr
  apiKey : Option Text
  timeout : Option Nat

/-- `None` as a header value, `node_conf.rs:23, 25`. -/
def kNone : Text := ['N', 'o', 'n', 'e']

/-- `NodeConf::get_node_api_header`, `node_conf.rs:19-27`. -/
def apiHeader (n : NodeConf) : Text :=
  match n.apiKey with
  | some k => match headerValueStr k with
    | some v => v
    | none => kNone
  | none => kNone

/-- `build_client`, `api.rs:17-24`: the timeout of a new builder is 30 seconds (`client.rs:300-305`). -/
def buildClient (n : NodeConf) : Client :=
  match n.timeout with
  | some t => clientOf [] (some t)
  | none => clientOf [] none

/-- `accept`, `api.rs:12`. -/
def kAccept : Text := ['a', 'c', 'c', 'e', 'p', 't']
/-- `api_key`, `api.rs:13`. -/
def kApiKey : Text := ['a', 'p', 'i', '_', 'k', 'e', 'y']

/-- `set_req_headers`, `api.rs:11-15`.  The value of `api_key` is a `HeaderValue` already; reading it again changes nothing. -/
def nodeCalls (n : NodeConf) : List Call := [.header kAccept kJson, .header kApiKey (apiHeader n), .header kContentType kJson]

/-- The requests to a node, `api/node.rs:24, 38, 121, 150`. -/
inductive NodeReq where
  | info
  | header (id : Bytes)
  | popow (minChain suffixLen : BitVec 32) (id : Bytes)
  | txProof (id tx : Bytes)

/-- `info`, `api/node.rs:27`. -/
def kInfoPath : Text := ['i', 'n', 'f', 'o']
/-- `blocks/`, `api/node.rs:40, 156`. -/
def kBlocksPath : Text := ['b', 'l', 'o', 'c', 'k', 's', '/']
/-- `/header`, `api/node.rs:42`. -/
def kHeaderPath : Text := ['/', 'h', 'e', 'a', 'd', 'e', 'r']
/-- `nipopow/proof/`, `api/node.rs:131`. -/
def kPopowPath : Text := ['n', 'i', 'p', 'o', 'p', 'o', 'w', '/', 'p', 'r', 'o', 'o', 'f', '/']
/-- `/proofFor/`, `api/node.rs:158`. -/
def kProofForPath : Text := ['/', 'p', 'r', 'o', 'o', 'f', 'F', 'o', 'r', '/']

/-- The path of a request, `api/node.rs:27, 39-42, 127-136, 155-160`; `none` is the error for a zero. -/
def NodeReq.path : NodeReq → Option Text
  | .info => some kInfoPath
  | .header id => some (kBlocksPath ++ Json.hexEnc id ++ kHeaderPath)
  | .popow m k id =>
    if m = 0 ∨ k = 0 then none
    else some (kPopowPath ++ decimal m.toNat ++ ['/'] ++ decimal k.toNat ++ ['/'] ++ Json.hexEnc id)
  | .txProof id tx => some (kBlocksPath ++ Json.hexEnc id ++ kProofForPath ++ Json.hexEnc tx)

/-- A request to a node up to the call of `fetch`, `api/node.rs:25-60, 121-175`; `base` is `as_http_url` of the address and `join`
appends the path to it (crate `url`).  The result is `none` when nothing is sent. -/
def nodeRequest (base : PeerAddr → Text) (hasHost : Text → Bool) (n : NodeConf) (q : NodeReq) : Option Sent :=
  match q.path with
  | none => none
  | some p =>
    let c := buildClient n
    send c ((nodeCalls n).foldl step (c.request hasHost ['G', 'E', 'T'] (base n.addr ++ p)))

end Verif.Http
