import Verif.Model.CApi

/-!
# Requests of the C interface: callbacks, abort, handles

`bindings/ergo-lib-c-core/src/rest/api/{callback,request_handle,runtime,node}.rs`, `node/abortable.rs`, and the closures of the Swift
library, `bindings/ergo-lib-ios/Sources/ErgoLib/WrapClosure.swift`.

A request is a task on the threads of the runtime; the caller may abort it, delete the handle or delete the runtime from another thread.
The model is one request as a transition system: the actions of the runtime and of the callers in any order.  Simplified: the answer of the
node is whatever the action `pollEnd` says (the queries themselves are C108); wakers are left out, so the runtime may poll at any time.
-/

namespace Verif
namespace Requests
open CApi

/-- A call of one of the two functions of the caller, with the data of the caller,
`bindings/ergo-lib-c-core/src/rest/api/callback.rs:16-18`. -/
inductive Ev (α : Type)
  | completion (user : Nat) (res : Option α) (err : Option CErr)
  | abort (user : Nat)
  deriving DecidableEq

/-- `CompletionCallback` and `AbortCallback`: the data of the caller, `bindings/ergo-lib-c-core/src/rest/api/callback.rs:11-19, 44-50`; the two
functions are what `Ev` stands for. -/
structure Callback where
  user : Nat

/-- `CompletionCallback::succeeded`, `bindings/ergo-lib-c-core/src/rest/api/callback.rs:25-31`. -/
def Callback.succeeded {α : Type} (c : Callback) (a : α) : Ev α := .completion c.user (some a) none

/-- `CompletionCallback::failed`, `bindings/ergo-lib-c-core/src/rest/api/callback.rs:34-40`. -/
def Callback.failed {α : Type} (c : Callback) (e : CErr) : Ev α := .completion c.user none (some e)

/-- `AbortCallback::abort_callback`, `bindings/ergo-lib-c-core/src/rest/api/callback.rs:54-56`. -/
def Callback.aborted {α : Type} (c : Callback) : Ev α := .abort c.user

/-- What the awaited query gives: a value, an error, or (proof of a transaction) nothing,
`bindings/ergo-lib-c-core/src/rest/api/node.rs:34-37, 83-91`. -/
inductive Answer (α : Type)
  | ok (a : α)
  | nothing
  | err (e : CErr)

/-- The `match` in the task, `bindings/ergo-lib-c-core/src/rest/api/node.rs:34-37, 57-60, 83-91, 113-123, 169-196`. -/
def report {α : Type} (c : Callback) : Answer α → Ev α
  | .ok a => c.succeeded a
  | .nothing => c.failed (.misc "No merkle proof")
  | .err e => c.failed e

/-- Where the task is: in the queue or waiting, being polled by a thread, over, `bindings/ergo-lib-c-core/src/rest/api/node/abortable.rs:15-17`. -/
inductive Phase
  | waiting
  | polling
  | over
  deriving DecidableEq

/-- A request: the task, the flag shared with the `AbortHandle` (`abortable.rs:15`), the number of threads inside `RequestHandle::abort` after
the flag is set (`request_handle.rs:26-27`), whether the `RequestHandle` is there, and the calls made so far. -/
structure Req (α : Type) where
  cb : Callback
  phase : Phase
  flag : Bool
  aborting : Nat
  handle : Bool
  log : List (Ev α)

/-- How a poll of the query ends, `bindings/ergo-lib-c-core/src/rest/api/node.rs:33-38`: nothing yet, an answer, or a panic. -/
inductive Poll (α : Type)
  | pending
  | ready (a : Answer α)
  | panics

/-- What the threads do: a poll begins and ends, `abort` sets the flag and calls the callback (`request_handle.rs:26-27`), the handle is deleted
(`bindings/ergo-lib-c/src/rest/api/request_handle.rs:19-21`), the runtime is deleted (`bindings/ergo-lib-c/src/rest/api/runtime.rs:19-21`). -/
inductive Act (α : Type)
  | pollBegin
  | pollEnd (p : Poll α)
  | abortFlag
  | abortCall
  | deleteHandle
  | deleteRuntime

variable {α : Type}

/-- One action, if it is possible.  `pollBegin`: `Abortable` looks at the flag first and ends the task without polling it if it is set;
`pollEnd`: an answer goes to the callback, otherwise the flag is looked at again (`futures_util::future::Abortable`, used at
`bindings/ergo-lib-c-core/src/rest/api/node/abortable.rs:16-17`); a panic is caught by the runtime and ends the task.  `abortFlag`,
`abortCall`: `request_handle.rs:25-28`, for a handle that is there.  `deleteRuntime`: a task that is not being polled is dropped, its callback
is not called; the deletion waits for polls (`tokio::runtime::Runtime`, `bindings/ergo-lib-c-core/src/rest/api/runtime.rs:6`). -/
def step (r : Req α) : Act α → Option (Req α)
  | .pollBegin =>
    if r.phase = .waiting then some (if r.flag then { r with phase := .over } else { r with phase := .polling }) else none
  | .pollEnd p =>
    if r.phase = .polling then
      match p with
      | .pending => some (if r.flag then { r with phase := .over } else { r with phase := .waiting })
      | .ready a => some { r with phase := .over, log := r.log ++ [report r.cb a] }
      | .panics => some { r with phase := .over }
    else none
  | .abortFlag => if r.handle then some { r with flag := true, aborting := r.aborting + 1 } else none
  | .abortCall =>
    if r.handle ∧ 0 < r.aborting then some { r with aborting := r.aborting - 1, log := r.log ++ [r.cb.aborted] } else none
  | .deleteHandle => if r.handle ∧ r.aborting = 0 then some { r with handle := false } else none
  | .deleteRuntime => if r.phase = .polling then none else some { r with phase := .over }

/-- Actions one after the other: the threads of `bindings/ergo-lib-c-core/src/rest/api/runtime.rs:11` and of the caller interleaved. -/
def steps (r : Req α) : List (Act α) → Option (Req α)
  | [] => some r
  | a :: as =>
    match step r a with
    | some r' => steps r' as
    | none => none

/-! ## Starting a request -/

/-- The arguments of the five functions, `bindings/ergo-lib-c-core/src/rest/api/node.rs:24-29, 45-51, 69-76, 99-107, 131-139`; `none` is null.  The
seeds are an array of C strings. -/
inductive Query
  | info (runtime conf : Option Nat)
  | header (runtime conf id : Option Nat)
  | proof (runtime conf id tx : Option Nat)
  | nipopow (runtime conf id : Option Nat)
  | peers (runtime : Option Nat) (seeds : Option (List (Option Text))) (numSeeds : Nat) (parallel : Nat)

/-- `const_ptr_as_ref(p, name)?`, for live objects, `bindings/ergo-lib-c-core/src/util.rs:6-15`. -/
def need : List (Option Nat × String) → Except CErr Unit
  | [] => .ok ()
  | (some _, _) :: l => need l
  | (none, name) :: _ => .error (.invalidArgument name)

/-- The loop over the seeds, `bindings/ergo-lib-c-core/src/rest/api/node.rs:147-160`; `isUrl` is the parser of URLs.  Reading past the array is
undefined: `none`. -/
def readSeeds (isUrl : Text → Bool) : Nat → List (Option Text) → Option (Except CErr (List Text))
  | 0, _ => some (.ok [])
  | _ + 1, [] => none
  | _ + 1, none :: _ => some (.error (.misc "seeds_ptr contains null element"))
  | n + 1, some t :: l =>
    if isUrl t then
      match readSeeds isUrl n l with
      | some (.ok ts) => some (.ok (t :: ts))
      | r => r
    else some (.error (.misc "Url::from_str"))

/-- The checks before the task is made, `bindings/ergo-lib-c-core/src/rest/api/node.rs:30-31, 52-54, 77-80, 108-110, 140-166`. -/
def checks (isUrl : Text → Bool) : Query → Option (Except CErr Unit)
  | .info rt conf => some (need [(rt, "runtime_ptr"), (conf, "node_conf_ptr")])
  | .header rt conf id => some (need [(rt, "runtime_ptr"), (conf, "node_conf_ptr"), (id, "header_id_ptr")])
  | .proof rt conf id tx =>
    some (need [(rt, "runtime_ptr"), (conf, "node_conf_ptr"), (id, "header_id_ptr"), (tx, "tx_id_ptr")])
  | .nipopow rt conf id => some (need [(rt, "runtime_ptr"), (conf, "node_conf_ptr"), (id, "header_id_ptr")])
  | .peers rt seeds n par =>
    match seeds with
    | none => some (.error (.misc "seeds_ptr is null"))
    | some l =>
      if n = 0 then some (.error (.misc "num_seeds must be > 0"))
      else
        match readSeeds isUrl n l with
        | none => none
        | some (.error e) => some (.error e)
        | some (.ok _) =>
          if par = 0 then some (.error (.misc "max_parallel_requests must be > 0")) else some (need [(rt, "runtime_ptr")])

/-- How the function that starts a request ends, `bindings/ergo-lib-c-core/src/rest/api/node.rs:29, 40`. -/
inductive Started (α : Type)
  | err (e : CErr)
  | running (r : Req α)
  | ub

/-- The five functions: checks, the task, the handle through a pointer that is not checked,
`bindings/ergo-lib-c-core/src/rest/api/node.rs:24-42, 45-65, 69-96, 99-128, 131-201`.  On an error the callback is dropped. -/
def start (isUrl : Text → Bool) (q : Query) (cb : Callback) (handleOut : Option Nat) : Started α :=
  match checks isUrl q with
  | none => .ub
  | some (.error e) => .err e
  | some (.ok ()) =>
    match handleOut with
    | none => .ub
    | some _ => .running { cb := cb, phase := .waiting, flag := false, aborting := 0, handle := true, log := [] }

/-! ## The closures of the Swift library -/

/-- The wrapped closure: how often it is retained, and the results it was called with,
`bindings/ergo-lib-ios/Sources/ErgoLib/WrapClosure.swift:5-10, 16`. -/
structure Closure (α : Type) where
  retained : Nat
  delivered : List (Except CErr α)

/-- `Unmanaged.passRetained`, `bindings/ergo-lib-ios/Sources/ErgoLib/WrapClosure.swift:15-16`. -/
def Closure.new : Closure α := { retained := 1, delivered := [] }

/-- The two functions given to the library, `bindings/ergo-lib-ios/Sources/ErgoLib/WrapClosure.swift:19-43, 46-53`: both take the retained value.
`none`: the closure is used after it was freed, or the error is missing (`errorPtr!`). -/
def Closure.call (c : Closure α) : Ev α → Option (Closure α)
  | .abort _ => if c.retained = 0 then none else some { c with retained := c.retained - 1 }
  | .completion _ res err =>
    if c.retained = 0 then none
    else
      match res, err with
      | some a, _ => some { retained := c.retained - 1, delivered := c.delivered ++ [.ok a] }
      | none, some e => some { retained := c.retained - 1, delivered := c.delivered ++ [.error e] }
      | none, none => none

/-- The calls one after the other, `bindings/ergo-lib-ios/Sources/ErgoLib/WrapClosure.swift:19-53`. -/
def Closure.calls (c : Closure α) : List (Ev α) → Option (Closure α)
  | [] => some c
  | e :: l =>
    match c.call e with
    | some c' => c'.calls l
    | none => none

end Requests
end Verif
