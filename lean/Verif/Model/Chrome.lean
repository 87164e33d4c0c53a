import Verif.Model.Discovery

/-!
# Peer discovery for Chrome (`ergo-rest/src/api/peer_discovery_internals/chrome.rs`)

A scan that can be continued, as a transition system: calls of `peer_discovery_inner_chrome` one after the other, in each the loop of
task 1, task 2 that takes requests from the channel and spawns a task for each, and the spawned tasks.  `U` stands for URLs without port
(`set_port(None)`), the form in which they are compared.  The steps of the tasks interleave arbitrarily.
-/

namespace Verif.Chrome
open Verif.Discovery (Seed seedSet ins)

/-- `NodeRequest`, `chrome.rs:514-522`. -/
inductive Req (U : Type) where
  | info (u : U)
  | all (u : U)
  deriving DecidableEq

/-- `get_url`, `chrome.rs:525-530`. -/
def Req.url {U : Type} : Req U → U
  | .info u => u
  | .all u => u

/-- `if let NodeRequest::PeersAll(_) = peer`, `chrome.rs:196-200`. -/
def Req.isAll {U : Type} : Req U → Bool
  | .info _ => false
  | .all _ => true

/-- `Msg`, `chrome.rs:491-512`. -/
inductive Msg (U : Type) where
  | active (u : U)
  | infoOk (u : U)
  | infoFail (u : U)
  | infoTimeout (u : U)
  | allTimeout (u : U)
  | allFail (u : U)
  | preflight
  | peers (ps : List U)
  deriving DecidableEq

/-- What becomes of a request to a node, as `chrome.rs:406-477` tells it apart: a good response, with the URLs of the peers if that is
what was asked for; a `ReqwestError` with Chrome's text for an aborted request; another `ReqwestError`; another error. -/
inductive Ans (U : Type) where
  | ok (ps : List U)
  | abort
  | network
  | other
  deriving DecidableEq

/-- The messages of a task, `chrome.rs:406-477`, in order.  With an aborted request the second message follows after 80 seconds
(lines 419-425, 458-467).  There is none for a `ReqwestError` of `/peers/all` that is not an abort (lines 450-468). -/
def replies {U : Type} : Req U → Ans U → List (Msg U)
  | .info u, .ok _ => [.infoOk u]
  | .info u, .abort => [.infoTimeout u, .preflight]
  | .info u, .network => [.infoFail u]
  | .info u, .other => [.infoFail u]
  | .all u, .ok ps => [.peers ps, .active u]
  | .all u, .abort => [.allTimeout u, .preflight]
  | .all _, .network => []
  | .all u, .other => [.allFail u]

/-- How much a message takes from `chrome_request_count`, `chrome.rs:244, 253, 268, 282, 296, 304, 307`. -/
def Msg.cost {U : Type} : Msg U → Nat
  | .active _ => 2
  | .infoOk _ => 2
  | .infoFail _ => 2
  | .infoTimeout _ => 1
  | .allFail _ => 2
  | .allTimeout _ => 1
  | .preflight => 1
  | .peers _ => 0

/-- Where the scan is: between calls; in the loop of task 1 (`chrome.rs:186-349`) waiting for the next item of the combined stream,
pushing requests before it handles a message, or about to handle it; behind the loop; or stopped by an underflow of
`chrome_request_count` (a panic in debug builds). -/
inductive Main (U : Type) where
  | idle
  | waiting
  | draining (m : Msg U)
  | handling (m : Msg U)
  | done
  | panicked
  deriving DecidableEq

/-- The state.  `ChromePeerDiscoveryScan` (`chrome.rs:536-545`): `active`, `visited`, `seeds`, `pending`.  The variables of task 1
(`chrome.rs:111-120, 145-154, 185`): `count`, an `i32`, here unbounded; `chrome`, a `usize`; `late` for `pending_requests_after_timeout`;
`addPeers`; `limit` for `max_parallel_requests`.  The channel of requests; the requests of the spawned tasks that wait for an answer; for
each task that has its answer the messages it still has to send; the channel of messages.  The heaps are lists, from which a greatest
element is taken (`Top`). -/
structure St (U : Type) where
  main : Main U
  limit : Nat
  count : Int
  chrome : Nat
  active : List U
  visited : List U
  seeds : List U
  pending : List (Req U)
  late : List (Req U)
  addPeers : Bool
  reqs : List (Req U)
  tasks : List (Req U)
  outs : List (List (Msg U))
  msgs : List (Msg U)

/-- `ChromePeerDiscoveryScan::new`, `chrome.rs:549-569`, for the set of the seeds (`seedSet` is lines 550-556, as in `non_chrome.rs`). -/
def init {U : Type} (seeds : List U) : St U :=
  ⟨.idle, 0, 0, 0, [], [], seeds, seeds.map .info, [], true, [], [], [], []⟩

/-- `r` can be what `BinaryHeap::pop` gives: `PeersAll` before `Info` (`chrome.rs:514-516`).  Simplification: among requests of one kind
the order of the URLs is left open. -/
def Top {U : Type} (r : Req U) (l : List (Req U)) : Prop := r ∈ l ∧ (r.isAll = true ∨ ∀ x ∈ l, x.isAll = false)

/-- `room_for_requests`, `chrome.rs:194-195`. -/
def St.room {U : Type} (s : St U) : Prop := s.limit > s.chrome ∧ s.limit - s.chrome ≥ 2

/-- `peers_all || !visited_peers.contains(&url)`, `chrome.rs:201`. -/
def St.fresh {U : Type} (s : St U) (r : Req U) : Prop := r.isAll = true ∨ r.url ∉ s.visited

/-- `match p`, `chrome.rs:236-333`, without `chrome_request_count`; the order of the peers (`shuffle`) makes no difference for a heap. -/
def effect {U : Type} [DecidableEq U] (s : St U) : Msg U → St U
  | .active u => { s with active := ins u s.active, visited := ins u s.visited, count := s.count - 1 }
  | .infoOk u => { s with pending := .all u :: s.pending }
  | .infoFail u => { s with visited := ins u s.visited, count := s.count - 1 }
  | .infoTimeout u => { s with visited := ins u s.visited, count := s.count - 1 }
  | .allFail u => { s with visited := ins u s.visited, count := s.count - 1 }
  | .allTimeout u => { s with visited := ins u s.visited, count := s.count - 1 }
  | .preflight => s
  | .peers ps =>
    if s.addPeers then { s with pending := ps.map .info ++ s.pending } else { s with late := ps.map .info ++ s.late }

/-- `if count == 0 && pending_requests.is_empty()`, `chrome.rs:334-336`. -/
def leave {U : Type} (s : St U) : St U := { s with main := if s.count = 0 ∧ s.pending = [] then .done else .waiting }

/-- What happens in a step, `ergo-rest/src/api/peer_discovery_internals/chrome.rs:100-373`. -/
inductive Ev (U : Type) where
  | call (n : Nat) (r : Req U)         -- a call with a limit on parallel requests; the first request is sent
  | ask (r : Req U)                    -- task 2 spawns a task, which makes the request
  | answer (r : Req U) (a : Ans U)     -- the request ends
  | die (r : Req U)                    -- the task panics
  | post (m : Msg U)                   -- a task sends a message
  | recv (m : Msg U)                   -- task 1 receives a message
  | skip (u : U)                       -- task 1 drops a peer it has visited
  | push (r : Req U)                   -- task 1 sends a request
  | drained                            -- task 1 stops sending requests
  | handle (m : Msg U)                 -- task 1 handles the message
  | timeout                            -- task 1 receives the timeout signal
  | finish                             -- the call returns the scan
  deriving DecidableEq

/-- Steps with a channel of `cap` requests (51 in the code: a buffer of 50, `chrome.rs:77, 83-84`, and one for the sender).  Simplification: the
channel of messages has no bound; in the code a message is taken even if the buffer is full, but its sender then waits, so the steps of
the code are some of these, and whenever a sender waits task 1 can go on.  Left out: `is_disconnected` (the receiver lives as long as
task 1 does). -/
inductive Step {U : Type} [DecidableEq U] (cap : Nat) : St U → Ev U → St U → Prop
  /-- `chrome.rs:111-154`.  Without pending requests the call fails (`NoPendingNodeRequests`, line 137). -/
  | call {s n r} : s.main = .idle → Top r s.pending →
      Step cap s (.call n r) { s with main := .waiting, limit := n, count := 1, chrome := 2, pending := s.pending.erase r, late := [],
                                      addPeers := true, reqs := s.reqs ++ [r] }
  /-- `chrome.rs:387-391, 478-486`: the mapped future only spawns a task. -/
  | ask {s r rest} : s.reqs = r :: rest → Step cap s (.ask r) { s with reqs := rest, tasks := r :: s.tasks }
  /-- `chrome.rs:406-477`. -/
  | answer {s r a} : r ∈ s.tasks →
      Step cap s (.answer r a) { s with tasks := s.tasks.erase r, outs := replies r a :: s.outs }
  /-- `url.socket_addrs(..).unwrap()`, `chrome.rs:392-400`. -/
  | die {s r} : r ∈ s.tasks → Step cap s (.die r) { s with tasks := s.tasks.erase r }
  /-- `tx_msg.send(..)`: the messages of one task are sent in order. -/
  | post {s m o pre suf} : s.outs = pre ++ (m :: o) :: suf →
      Step cap s (.post m) { s with outs := pre ++ o :: suf, msgs := s.msgs ++ [m] }
  /-- `C::RxMsg`, `chrome.rs:186-188`. -/
  | recv {s m rest} : s.main = .waiting → s.msgs = m :: rest →
      Step cap s (.recv m) { s with main := .draining m, msgs := rest }
  /-- `chrome.rs:190-201`, a peer that was visited. -/
  | skip {s m u} : s.main = .draining m → Top (.info u) s.pending → u ∈ s.visited →
      Step cap s (.skip u) { s with pending := s.pending.erase (.info u) }
  /-- `chrome.rs:201-218`. -/
  | push {s m r} : s.main = .draining m → Top r s.pending → s.fresh r → s.room → s.reqs.length < cap →
      Step cap s (.push r) { s with pending := s.pending.erase r, visited := ins r.url s.visited, chrome := s.chrome + 2,
                                    count := if r.isAll then s.count else s.count + 1, reqs := s.reqs ++ [r] }
  /-- `chrome.rs:190, 219-234`: nothing is pending, or there is no room and the request is pushed back. -/
  | drained {s m} : s.main = .draining m →
      (s.pending = [] ∨ ∃ r, Top r s.pending ∧ s.fresh r ∧ (¬ s.room ∨ cap ≤ s.reqs.length)) →
      Step cap s .drained { s with main := .handling m }
  /-- `chrome.rs:236-336`. -/
  | handle {s m} : s.main = .handling m → m.cost ≤ s.chrome →
      Step cap s (.handle m) (leave (effect { s with chrome := s.chrome - m.cost } m))
  /-- `chrome_request_count -= …` below zero. -/
  | underflow {s m} : s.main = .handling m → s.chrome < m.cost → Step cap s (.handle m) { s with main := .panicked }
  /-- `C::RxTimeoutSignal`, `chrome.rs:338-342`; the signal is sent once in a call. -/
  | timeout {s} : s.main = .waiting → s.addPeers = true →
      Step cap s .timeout { s with addPeers := false, pending := [], late := s.pending ++ s.late }
  /-- `chrome.rs:351-372`: the channels are dropped, and the variables of the call with them. -/
  | finish {s} : s.main = .done →
      Step cap s .finish { s with main := .idle, count := 0, chrome := 0, active := s.active.filter (· ∉ s.seeds), pending := s.late,
                                  late := [], outs := [], msgs := [] }

/-- An execution from a state, with what happens in it, of the tasks of `ergo-rest/src/api/peer_discovery_internals/chrome.rs:100-373`. -/
inductive Run {U : Type} [DecidableEq U] (cap : Nat) (s₀ : St U) : List (Ev U) → St U → Prop
  | nil : Run cap s₀ [] s₀
  | snoc {tr s e s'} : Run cap s₀ tr s → Step cap s e s' → Run cap s₀ (tr ++ [e]) s'

/-- The time for the search, in nanoseconds, from the one given by the caller, `chrome.rs:68-74`; `as_secs` rounds down. -/
def searchTime (timeout : Nat) : Outcome Nat :=
  if timeout / 1000000000 < 90 then .err
  else if 80000000000 ≤ timeout then .ok (timeout - 80000000000) else .panic

end Verif.Chrome
