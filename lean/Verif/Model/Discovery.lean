import Verif.Model.Base
import Mathlib.Data.List.Perm.Basic

/-!
# Peer discovery (`ergo-rest/src/api/peer_discovery_internals/non_chrome.rs`)

The search for active nodes as a transition system: the loop of task 1, task 2 that takes URLs from the channel and spawns a task for
each, and the spawned tasks.  `U` stands for URLs without port (`set_port(None)`), the form in which they are compared.  The steps of
the tasks interleave arbitrarily.
-/

namespace Verif.Discovery

/-- A seed as the caller gives it: the URL without its port, and whether a port can be set, which fails for URLs without a host
(`Url::set_port`; used with `unwrap` in `non_chrome.rs:103-107`). -/
structure Seed (U : Type) where
  url : U
  hasHost : Bool

/-- The set of seeds, `non_chrome.rs:101-107`; a `HashSet`, here a list without repetitions in some order. -/
def seedSet {U : Type} [DecidableEq U] : List (Seed U) → Outcome (List U)
  | [] => .ok []
  | s :: l => if s.hasHost then do
      let r ← seedSet l
      pure (if s.url ∈ r then r else s.url :: r)
    else .panic

/-- `Msg`, `non_chrome.rs:342-353`. -/
inductive Msg (U : Type) where
  | active (u : U)
  | inactive (u : U)
  | peers (ps : List U)
  deriving DecidableEq

/-- Where task 1 is, `non_chrome.rs:117-245`: sending the remaining seeds, waiting for the next item of the combined stream, pushing
peers from the stack before it handles a message, about to handle it, behind the loop, or
stopped by an underflow of `count` (a panic in debug builds). -/
inductive Main (U : Type) where
  | seeding (rest : List U)
  | waiting
  | draining (m : Msg U)
  | handling (m : Msg U)
  | done
  | panicked
  deriving DecidableEq

/-- The state: the variables of task 1, `non_chrome.rs:126-133, 173` (`visited_peers`, `visited_active_peers`, `peer_stack` with its top
first, `count`, `add_peers`); the two channels; the URLs of the spawned tasks that wait for an answer; for each task that has its answer
the messages it still has to send. -/
structure St (U : Type) where
  main : Main U
  count : Nat
  active : List U
  visited : List U
  stack : List U
  addPeers : Bool
  urls : List U
  tasks : List U
  outs : List (List (Msg U))
  msgs : List (Msg U)

/-- The state after `spawn_http_request_task`, `non_chrome.rs:109-115`.  `count` is set behind the loop over the seeds in the code
(`non_chrome.rs:126`) and not used before. -/
def init {U : Type} (seeds : List U) : St U :=
  ⟨.seeding seeds, seeds.length, [], [], [], true, [], [], [], []⟩

/-- The messages of a task for the answer of its node, `non_chrome.rs:301-324`: `none` if `/info` or `/peers/all` fails, otherwise the
URLs of its peers (`as_http_url` without port, `non_chrome.rs:180-182`). -/
def replies {U : Type} (u : U) : Option (List U) → List (Msg U)
  | some ps => [.peers ps, .active u]
  | none => [.inactive u]

/-- Adds to a `HashSet`, `ergo-rest/src/api/peer_discovery_internals/non_chrome.rs:128-129`. -/
def ins {U : Type} [DecidableEq U] (u : U) (l : List U) : List U := if u ∈ l then l else u :: l

/-- What happens in a step, `ergo-rest/src/api/peer_discovery_internals/non_chrome.rs:98-324`. -/
inductive Ev (U : Type) where
  | seed (u : U)                           -- task 1 sends a seed
  | sent                                   -- task 1 has sent all seeds
  | ask (u : U)                            -- task 2 spawns a task, which queries the node
  | answer (u : U) (r : Option (List U))   -- the node answers, or fails to
  | die (u : U)                            -- the task panics
  | post                                   -- a task sends a message
  | recv                                   -- task 1 receives a message
  | skip (u : U)                           -- task 1 drops a peer it has visited
  | push (u : U)                           -- task 1 sends a peer
  | drained                                -- task 1 stops pushing peers
  | handle                                 -- task 1 handles the message
  | timeout                                -- task 1 receives the timeout signal
  deriving DecidableEq

/-- Steps with channels of capacity `cap` (`max_parallel_tasks`, `non_chrome.rs:59-72`).  Left out: the receiver of the URL channel lives
as long as task 1 does, so `TrySendError::Closed` does not occur; the wasm build (its channels hold one message more). -/
inductive Step {U : Type} [DecidableEq U] (cap : Nat) : St U → Ev U → St U → Prop
  /-- `non_chrome.rs:117-120`: waits for room in the channel. -/
  | seed {s u rest} : s.main = .seeding (u :: rest) → s.urls.length < cap →
      Step cap s (.seed u) { s with main := .seeding rest, urls := s.urls ++ [u] }
  /-- The loop over the seeds ends. -/
  | sent {s} : s.main = .seeding [] → Step cap s .sent { s with main := .waiting }
  /-- `non_chrome.rs:283-300, 328-340`: the mapped future only spawns a task and is finished with that, so `buffer_unordered` is
  always ready for the next URL. -/
  | ask {s u rest} : s.urls = u :: rest → Step cap s (.ask u) { s with urls := rest, tasks := u :: s.tasks }
  /-- `non_chrome.rs:301-324`. -/
  | answer {s u r} : u ∈ s.tasks →
      Step cap s (.answer u r) { s with tasks := s.tasks.erase u, outs := replies u r :: s.outs }
  /-- `url.socket_addrs(..).unwrap()`, `non_chrome.rs:294-299`: panics if the host cannot be resolved. -/
  | die {s u} : u ∈ s.tasks → Step cap s (.die u) { s with tasks := s.tasks.erase u }
  /-- `infallible_send`: waits for room in the channel.  The messages of one task are sent in order. -/
  | post {s m o pre suf} : s.outs = pre ++ (m :: o) :: suf → s.msgs.length < cap →
      Step cap s .post { s with outs := pre ++ (if o = [] then suf else o :: suf), msgs := s.msgs ++ [m] }
  /-- `C::RxMsg`, `non_chrome.rs:175-177`. -/
  | recv {s m rest} : s.main = .waiting → s.msgs = m :: rest →
      Step cap s .recv { s with main := .draining m, msgs := rest }
  /-- `non_chrome.rs:179-183`, a peer that was visited. -/
  | skip {s m u rest} : s.main = .draining m → s.stack = u :: rest → u ∈ s.visited →
      Step cap s (.skip u) { s with stack := rest }
  /-- `non_chrome.rs:183-188`. -/
  | push {s m u rest} : s.main = .draining m → s.stack = u :: rest → u ∉ s.visited → s.urls.length < cap →
      Step cap s (.push u) { s with stack := rest, visited := ins u s.visited, count := s.count + 1, urls := s.urls ++ [u] }
  /-- `non_chrome.rs:179, 189-193`: the stack is empty, or the channel is full and the peer is pushed back. -/
  | drained {s m} : s.main = .draining m → (s.stack = [] ∨ ∃ u rest, s.stack = u :: rest ∧ u ∉ s.visited ∧ s.urls.length = cap) →
      Step cap s .drained { s with main := .handling m }
  /-- `Msg::AddActiveNode`, `non_chrome.rs:201-210`. -/
  | active {s u} : s.main = .handling (.active u) → s.count ≠ 0 →
      Step cap s .handle { s with main := if s.count - 1 = 0 then .done else .waiting, active := ins u s.active,
                                  visited := ins u s.visited, count := s.count - 1 }
  /-- `Msg::AddInactiveNode`, `non_chrome.rs:211-219`. -/
  | inactive {s u} : s.main = .handling (.inactive u) → s.count ≠ 0 →
      Step cap s .handle { s with main := if s.count - 1 = 0 then .done else .waiting,
                                  visited := ins u s.visited, count := s.count - 1 }
  /-- `count -= 1` at zero. -/
  | underflow {s m} : s.main = .handling m → (∀ ps, m ≠ .peers ps) → s.count = 0 →
      Step cap s .handle { s with main := .panicked }
  /-- `Msg::CheckPeers`, `non_chrome.rs:220-227`: in any order (`shuffle`). -/
  | peers {s ps l} : s.main = .handling (.peers ps) → l.Perm ps →
      Step cap s .handle { s with main := .waiting, stack := if s.addPeers then l ++ s.stack else s.stack }
  /-- `C::RxTimeoutSignal`, `non_chrome.rs:230-233`; the signal is sent once. -/
  | timeout {s} : s.main = .waiting → s.addPeers = true →
      Step cap s .timeout { s with addPeers := false, stack := [] }

/-- The peers that are returned, `non_chrome.rs:238-242`; a list made from a set, so in some order. -/
def result {U : Type} [DecidableEq U] (seeds : List U) (s : St U) : List U := s.active.filter (· ∉ seeds)

/-- An execution from a state, with what happens in it, of the tasks of `ergo-rest/src/api/peer_discovery_internals/non_chrome.rs:98-324`.
-/
inductive Run {U : Type} [DecidableEq U] (cap : Nat) (s₀ : St U) : List (Ev U) → St U → Prop
  | nil : Run cap s₀ [] s₀
  | snoc {tr s e s'} : Run cap s₀ tr s → Step cap s e s' → Run cap s₀ (tr ++ [e]) s'

end Verif.Discovery
