import Verif.Model.Http
import Verif.Model.JsonChain

/-!
# Answers to the requests of the REST client

Source: `ergo-rest/src/reqwest/wasm/{client,response,mod}.rs`, `ergo-rest/src/reqwest/error.rs`, `ergo-rest/src/api/node.rs`,
`ergo-rest/src/error.rs`.

The browser is described by when its promises settle and with what.  The parsers of URLs (crate `url`) and of JSON text (crate
`serde_json`) are parameters.  Times are in milliseconds.
-/

namespace Verif.Http

/-- `Kind`, `error.rs:231-239`. -/
inductive ErrKind where
  | builder
  | request
  | redirect
  | status (code : Nat)
  | body
  | decode
  deriving DecidableEq

/-- An element of the chain of sources of an error, `error.rs:102-111`, by what `is_timeout` sees of it: the type `TimedOut`
(`error.rs:299`) or another one (a text made by `error::wasm`, `error.rs:271-275`, an error of `serde_json` or `http`). -/
inductive Cause where
  | timedOut
  | other
  deriving DecidableEq

/-- `Error`, `error.rs:16-26`, with the chain of its sources. -/
structure ReqError where
  kind : ErrKind
  sources : List Cause
  url : Option Text
  deriving DecidableEq

/-- `Error::is_timeout`, `error.rs:101-112`. -/
def ReqError.isTimeout (e : ReqError) : Bool := e.sources.any fun c => c = .timedOut

/-- `Error::is_status`, `error.rs:96-98`. -/
def ReqError.isStatus (e : ReqError) : Bool :=
  match e.kind with
  | .status _ => true
  | _ => false

/-- `Error::is_decode`, `error.rs:143-145`. -/
def ReqError.isDecode (e : ReqError) : Bool := e.kind == .decode

/-- `Error::is_request`, `error.rs:115-117`. -/
def ReqError.isRequest (e : ReqError) : Bool := e.kind == .request

/-- `Error::is_builder`, `error.rs:86-88`. -/
def ReqError.isBuilder (e : ReqError) : Bool := e.kind == .builder

/-- `Error::status`, `error.rs:148-153`. -/
def ReqError.statusCode (e : ReqError) : Option Nat :=
  match e.kind with
  | .status c => some c
  | _ => none

/-- `error::request`, `error::decode` and `error::builder`, `error.rs:243-257`, of an error that is not a `TimedOut`. -/
def errOf (k : ErrKind) : ReqError := ⟨k, [.other], none⟩

/-- The result of an asynchronous function: a value, an error, or a panic (`expect_throw`, `client.rs:276-292`). -/
inductive AsyncRes (ε α : Type) where
  | ok (v : α)
  | err (e : ε)
  | thrown

/-- `http::response::Parts` and body with the URL, `response.rs:12-17`; the body is read by `Behaviour.body`. -/
structure Response where
  status : Nat
  headers : HeaderMap
  url : Text

/-- `web_sys::Response`, `client.rs:274-292`: what the browser has when the head of an answer is there. -/
structure JsResponse where
  status : Nat
  url : Text
  headers : List (Text × Text)

/-- What the browser does with a request.  `head`: when the promise of `fetch` settles if the request is not aborted, and with what
(`none`: it is rejected, `client.rs:265-268`); `body`: how long after being asked for it the promise of `array_buffer` settles
(`response.rs:104-113`).  The outer `none` is never.  `tie`: whether the promise is served first when timer and promise come in
the same millisecond. -/
structure Behaviour where
  head : Option (Nat × Option JsResponse)
  body : Option (Nat × Option Bytes)
  tie : Bool

/-- The response with the headers of the iterator, `client.rs:278-290`: `Builder::header` appends, and keeps its first error. -/
def addHeaders : List (Text × Text) → Option HeaderMap → Option HeaderMap
  | [], h => h
  | (n, v) :: r, h => addHeaders r (do
      let h ← h
      let n ← headerName n
      let v ← headerValueString v
      pure (h.append n v))

/-- From the browser's response to a `Response`, `client.rs:274-294`.  `parseUrl` is whether `Url::parse` succeeds; status codes
from 100 to 999 are accepted by the crate `http`. -/
def ofJs (parseUrl : Text → Bool) (js : JsResponse) : AsyncRes ReqError Response :=
  if parseUrl js.url then
    match (if 100 ≤ js.status ∧ js.status < 1000 then addHeaders js.headers (some []) else none) with
    | some h => .ok ⟨js.status, h, js.url⟩
    | none => .err (errOf .request)
  else .thrown

/-- `fetch` from the call of the browser's `fetch` on, `client.rs:244-294`: the timer (`setTimeout`, a negative length counts as
zero) aborts the request, upon which the promise is rejected; once the head is there the timer is cleared.  The result comes with
its time; `none` is a future that stays pending. -/
def fetchAnswer (parseUrl : Text → Bool) (timer : Option Int) (b : Behaviour) : Option (Nat × AsyncRes ReqError Response) :=
  let settled (r : Option JsResponse) : AsyncRes ReqError Response :=
    match r with
    | none => .err (errOf .request)
    | some js => ofJs parseUrl js
  match b.head, timer with
  | none, none => none
  | none, some a => some (a.toNat, .err (errOf .request))
  | some (t, r), none => some (t, settled r)
  | some (t, r), some a =>
    if t < a.toNat ∨ (t = a.toNat ∧ b.tie = true) then some (t, settled r) else some (a.toNat, .err (errOf .request))

/-- `Response::bytes`, `response.rs:103-119`, begun at time `t`. -/
def readBytes (b : Behaviour) (t : Nat) : Option (Nat × AsyncRes ReqError Bytes) :=
  match b.body with
  | none => none
  | some (d, none) => some (t + d, .err (errOf .decode))
  | some (d, some bs) => some (t + d, .ok bs)

/-- `Response::json`, `response.rs:78-82`, begun at time `t`; `parse` is `serde_json::from_slice` into a JSON value. -/
def readJson {α : Type} (parse : Bytes → Option Json) (read : Json → Outcome α) (b : Behaviour) (t : Nat) :
    Option (Nat × AsyncRes ReqError α) :=
  match readBytes b t with
  | none => none
  | some (t, .thrown) => some (t, .thrown)
  | some (t, .err e) => some (t, .err e)
  | some (t, .ok bs) => match parse bs with
    | none => some (t, .err (errOf .decode))
    | some j => match read j with
      | .ok v => some (t, .ok v)
      | .err => some (t, .err (errOf .decode))
      | .panic => some (t, .thrown)

/-- `StatusCode::is_client_error` and `is_server_error`, used at `response.rs:126, 136`. -/
def statusIsError (s : Nat) : Bool := (400 ≤ s && s < 500) || (500 ≤ s && s < 600)

/-- `Response::error_for_status` and `error_for_status_ref`, `response.rs:124-141`; `error::status_code`, `error.rs:263-265`. -/
def Response.errorForStatus (r : Response) : AsyncRes ReqError Response :=
  if statusIsError r.status then .err ⟨.status r.status, [], some r.url⟩ else .ok r

/-- `content-length`, `response.rs:54`. -/
def kContentLength : Text := ['c', 'o', 'n', 't', 'e', 'n', 't', '-', 'l', 'e', 'n', 'g', 't', 'h']

/-- `Response::content_length`, `response.rs:52-59`: the first value, if it is visible ASCII and a `u64`. -/
def Response.contentLength (r : Response) : Option Nat :=
  match r.headers.values kContentLength with
  | [] => none
  | v :: _ => if v.all visible then Json.parseUint (2 ^ 64) v else none

/-- `NodeError`, `ergo-rest/src/error.rs:7-14`. -/
inductive NodeError where
  | reqwest (e : ReqError)
  | invalidSegment

/-- The values of the queries, `api/node.rs:25, 38, 126, 155`. -/
inductive NodeAnswer (G : Type) where
  | info (n : NodeInfo)
  | header (h : Header G)
  | popow (p : NipopowProof G)
  | txProof (p : Option Merkle.Proof)

/-- The type asked of `json` in each query, `api/node.rs:33, 49, 144, 171`. -/
def readAnswer {G : Type} (fl : Text → Option Int) (pc : PointCodec G) (q : NodeReq) (j : Json) : Outcome (NodeAnswer G) :=
  match q with
  | .info => do pure (.info (← readNodeInfo j))
  | .header _ => do pure (.header (← readHeader fl pc j))
  | .popow _ _ _ => do pure (.popow (← readNipopow fl pc j))
  | .txProof _ _ => match j with
    | .null => pure (.txProof none)
    | j => do pure (.txProof (some (← readProof j)))

/-- What the functions on the other side of the interface are: `as_http_url` and `join`, `Url::has_host`, `Url::parse`, the JSON
parser, the reader of floating point numbers and the codec of points, `api/node.rs:27-35`. -/
structure NodeEnv (G : Type) where
  base : PeerAddr → Text
  hasHost : Text → Bool
  parseUrl : Text → Bool
  parse : Bytes → Option Json
  fl : Text → Option Int
  pc : PointCodec G

/-- `get_info`, `get_header`, `get_nipopow_proof_by_header_id` and `get_blocks_header_id_proof_for_tx_id`,
`api/node.rs:24-52, 121-175`, with the time the result is there. -/
def nodeQuery {G : Type} (E : NodeEnv G) (n : NodeConf) (q : NodeReq) (b : Behaviour) :
    Option (Nat × AsyncRes NodeError (NodeAnswer G)) :=
  let lift {α : Type} (r : AsyncRes ReqError α) : AsyncRes NodeError α := match r with
    | .ok v => .ok v
    | .err e => .err (.reqwest e)
    | .thrown => .thrown
  match q.path with
  | none => some (0, .err .invalidSegment)
  | some _ => match nodeRequest E.base E.hasHost n q with
    | none => some (0, .err (.reqwest (errOf .builder)))
    | some s => match fetchAnswer E.parseUrl s.timer b with
      | none => none
      | some (t, .ok _) => (readJson E.parse (readAnswer E.fl E.pc q) b t).map fun p => (p.1, lift p.2)
      | some (t, .err e) => some (t, .err (.reqwest e))
      | some (t, .thrown) => some (t, .thrown)

end Verif.Http
