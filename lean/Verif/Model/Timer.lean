import Verif.Model.TimerHeap

/-!
# Timers, delays and intervals

Source: `ergo-rest/src/wasm_timer/timer.rs` (`Timer`), `timer/delay.rs` (`Delay`), `timer/interval.rs` (`Interval`),
`timer/arc_list.rs` (`ArcList`), `wasm.rs` (`SystemTime`).

Instants are natural numbers of nanoseconds.  Nodes (`Arc<Node<ScheduledTimer>>`) are named by numbers; a `Delay` has the name of its
node.  Wakers are not modelled.  A call on a timer or a delay is one step here, as on `wasm32` where there is one thread; the smaller
steps between which other threads can run are in the last section.
-/

namespace Verif
namespace Timer
open TimerHeap

/-- `Node<ScheduledTimer>`, `timer.rs:301-316` and `arc_list.rs:105-109`: the deadline, the state word (bit 0: fired, bit 1:
invalidated, the rest: the generation), the slot in the heap, and whether the node is on the list of updates.  Simplification: the
state word is unbounded, so generations do not wrap. -/
structure Node where
  due : Option Nat
  state : Nat
  slot : Option Nat
  enqueued : Bool
  deriving DecidableEq, Repr

/-- `HeapTimer`, `timer.rs:320-324`. -/
structure HeapTimer where
  due : Nat
  gen : Nat
  node : Nat
  deriving DecidableEq, Repr

/-- `Ord for HeapTimer`, `timer.rs:490-494`: by instant only. -/
def HeapTimer.le (a b : HeapTimer) : Bool := decide (a.due ≤ b.due)

/-- A timer with its delays: the nodes, the list of updates (`Inner::list`, head first), the part of it that `Timer::poll` has taken,
the node being processed with the deadline read from it, the heap, whether the timer has been dropped, and for every delay whether its
`state` is `Some` (`delay.rs:31`) and its `when` (`delay.rs:32`). -/
structure World where
  node : Nat → Node
  list : List Nat
  taken : List Nat
  cur : Option (Nat × Option Nat)
  heap : Heap HeapTimer
  gone : Bool
  held : Nat → Bool
  when_ : Nat → Nat

/-- `Timer::new`, `timer.rs:328-336`, with no delays. -/
def World.new : World := ⟨fun _ => ⟨none, 0, none, false⟩, [], [], none, Heap.new, false, fun _ => false, fun _ => 0⟩

/-- Change one node, the atomics of `ScheduledTimer`, `ergo-rest/src/wasm_timer/timer.rs:301`. -/
def World.upd (w : World) (n : Nat) (f : Node → Node) : World :=
  { w with node := fun k => if k = n then f (w.node k) else w.node k }

/-- `ArcList::push`, `arc_list.rs:27-51`.  A sealed list is met only while the timer is being dropped, which is one step here. -/
def World.push (w : World) (n : Nat) : World :=
  if (w.node n).enqueued then w
  else { w.upd n (fun x => { x with enqueued := true }) with list := n :: w.list }

/-! ## Delays -/

/-- `Delay::new_handle`, `delay.rs:58-91`; the name `n` is new. -/
def World.create (w : World) (n due : Nat) : World :=
  if w.gone then
    { w with held := fun k => if k = n then false else w.held k, when_ := fun k => if k = n then due else w.when_ k }
  else
    let w := w.upd n (fun _ => ⟨some due, 0, none, false⟩)
    let w := w.push n
    { w with held := fun k => if k = n then true else w.held k, when_ := fun k => if k = n then due else w.when_ k }

/-- The `compare_exchange` of `_reset`, `delay.rs:129-140`: a new generation with both bits cleared; `none` if invalidated. -/
def World.cas (w : World) (n : Nat) : Option World :=
  if (w.node n).state / 2 % 2 = 1 then none
  else some (w.upd n fun x => { x with state := (x.state + 4) / 4 * 4 })

/-- `*state.at.lock() = at`, `delay.rs:143, 201`. -/
def World.setAt (w : World) (n : Nat) (due : Option Nat) : World := w.upd n fun x => { x with due := due }

/-- `Delay::reset_at` and `_reset`, `delay.rs:116-152`.  If the timer is gone `upgrade` fails and `_reset` returns `Ok`. -/
def World.reset (w : World) (n due : Nat) : World :=
  let w := { w with when_ := fun k => if k = n then due else w.when_ k }
  if w.held n then
    if w.gone then w
    else
      match w.cas n with
      | none => { w with held := fun k => if k = n then false else w.held k }
      | some w => (w.setAt n (some due)).push n
  else w

/-- `Drop for Delay`, `delay.rs:192-208`. -/
def World.dropDelay (w : World) (n : Nat) : World :=
  if w.held n then
    if w.gone then w else (w.setAt n none).push n
  else w

/-- What polling a delay returns, `ergo-rest/src/wasm_timer/timer/delay.rs:163-190`. -/
inductive Poll where
  | readyOk
  | readyErr
  | pending
  deriving DecidableEq, Repr

/-- `Future for Delay`, `delay.rs:163-189`. -/
def World.pollDelay (w : World) (n : Nat) : Poll :=
  if w.held n then
    if (w.node n).state % 2 = 1 then .readyOk
    else if (w.node n).state / 2 % 2 = 1 then .readyErr
    else .pending
  else .readyErr

/-! ## The timer -/

/-- The heap without the entry that the slot of the node names, `timer.rs:405-407`. -/
def World.unlink (w : World) (n : Nat) : Outcome (Heap HeapTimer) :=
  match (w.node n).slot with
  | some s => do
    let (_, h) ← w.heap.remove HeapTimer.le s
    .ok h
  | none => .ok w.heap

/-- `update_or_add`, `timer.rs:398-413`. -/
def World.updateOrAdd (w : World) (due n : Nat) : Outcome World := do
  let gen := (w.node n).state / 4
  let heap ← w.unlink n
  let (s, heap) ← heap.push HeapTimer.le ⟨due, gen, n⟩
  .ok { w.upd n (fun x => { x with slot := some s }) with heap := heap }

/-- `Timer::remove`, `timer.rs:415-425`. -/
def World.removeNode (w : World) (n : Nat) : Outcome World :=
  match (w.node n).slot with
  | none => .ok w
  | some s => do
    let (_, h) ← w.heap.remove HeapTimer.le s
    .ok { w.upd n (fun x => { x with slot := none }) with heap := h }

/-- `self.inner.list.take()`, `timer.rs:438` and `arc_list.rs:55-70`. -/
def World.take (w : World) : World := { w with taken := w.list, list := [] }

/-- `list.pop()` and the read of the deadline, `timer.rs:439-441` and `arc_list.rs:83-94` with its `assert!`. -/
def World.pick (w : World) : Outcome World :=
  match w.taken with
  | [] => .ok { w with cur := none }
  | n :: l =>
    if (w.node n).enqueued then
      .ok { w.upd n (fun x => { x with enqueued := false }) with taken := l, cur := some (n, (w.node n).due) }
    else .panic

/-- The body of the loop after the read, `timer.rs:442-445`. -/
def World.apply (w : World) : Outcome World :=
  match w.cur with
  | none => .ok w
  | some (n, some due) => { w with cur := none }.updateOrAdd due n
  | some (n, none) => { w with cur := none }.removeNode n

/-- The loop of `Timer::poll`, `timer.rs:439-446`; `fuel` is the number of nodes taken. -/
def World.process : Nat → World → Outcome World
  | 0, w => .ok w
  | fuel + 1, w => do
    let w ← w.pick
    let w ← w.apply
    World.process fuel w

/-- `Future for Timer`, `timer.rs:433-449`.  A dropped timer cannot be polled. -/
def World.pollTimer (w : World) : Outcome World :=
  if w.gone then .ok w else World.process w.take.taken.length w.take

/-- The `compare_exchange` of `advance_to` and the slot, `timer.rs:381-392`. -/
def World.fire (w : World) (e : HeapTimer) : World :=
  w.upd e.node fun x => { x with slot := none, state := if x.state = 4 * e.gen then 4 * e.gen + 1 else x.state }

/-- The loop of `advance_to`, `timer.rs:367-393`; running out of `fuel` is a panic of the model. -/
def World.advanceLoop : Nat → World → Nat → Outcome World
  | 0, _, _ => .panic
  | fuel + 1, w, now =>
    match w.heap.peek with
    | some head =>
      if head.due ≤ now then do
        let (e, h) ← w.heap.pop HeapTimer.le
        match e with
        | some e => World.advanceLoop fuel ({ w with heap := h }.fire e) now
        | none => .panic
      else .ok w
    | none => .ok w

/-- `advance_to`, `timer.rs:366-394`.  A dropped timer cannot be advanced. -/
def World.advance (w : World) (now : Nat) : Outcome World :=
  if w.gone then .ok w else World.advanceLoop (w.heap.items.length + 1) w now

/-- `next_event`, `timer.rs:350-352`. -/
def World.nextEvent (w : World) : Option Nat := w.heap.peek.map HeapTimer.due

/-- `invalidate`, `timer.rs:427-430`: `fetch_or(0b10)`. -/
def World.invalidate (w : World) (n : Nat) : World :=
  w.upd n fun x => { x with state := if x.state / 2 % 2 = 1 then x.state else x.state + 2 }

/-- First loop of `Drop for Timer`, `timer.rs:461-463`. -/
def World.dropList : List Nat → World → Outcome World
  | [], w => .ok w
  | n :: l, w =>
    if (w.node n).enqueued then World.dropList l ((w.upd n fun x => { x with enqueued := false }).invalidate n)
    else .panic

/-- Second loop of `Drop for Timer`, `timer.rs:464-466`; running out of `fuel` is a panic of the model. -/
def World.dropHeap : Nat → World → Outcome World
  | 0, _ => .panic
  | fuel + 1, w => do
    let (e, h) ← w.heap.pop HeapTimer.le
    match e with
    | some e => World.dropHeap fuel ({ w with heap := h }.invalidate e.node)
    | none => .ok { w with heap := h }

/-- `Drop for Timer`, `timer.rs:451-468`. -/
def World.dropTimer (w : World) : Outcome World :=
  if w.gone then .ok w
  else do
    let w ← World.dropList w.list { w with list := [] }
    let w ← World.dropHeap (w.heap.items.length + 1) w
    .ok { w with gone := true }

/-! ## Sequences of calls -/

/-- A call on a delay or on the timer, of `ergo-rest/src/wasm_timer/timer.rs:358-468` and `ergo-rest/src/wasm_timer/timer/delay.rs:41-208`.
-/
inductive Ev where
  | create (n due : Nat)
  | reset (n due : Nat)
  | dropDelay (n : Nat)
  | pollTimer
  | advance (now : Nat)
  | dropTimer
  deriving DecidableEq, Repr

/-- One call, the calls of `ergo-rest/src/wasm_timer/timer.rs:358-468` and `ergo-rest/src/wasm_timer/timer/delay.rs:41-208`. -/
def World.step (w : World) : Ev → Outcome World
  | .create n due => .ok (w.create n due)
  | .reset n due => .ok (w.reset n due)
  | .dropDelay n => .ok (w.dropDelay n)
  | .pollTimer => w.pollTimer
  | .advance now => w.advance now
  | .dropTimer => w.dropTimer

/-- A sequence of calls, not in the code: any use of `ergo-rest/src/wasm_timer/timer.rs:358-468` and
`ergo-rest/src/wasm_timer/timer/delay.rs:41-208`. -/
def World.run (w : World) : List Ev → Outcome World
  | [] => .ok w
  | e :: l => do
    let w ← w.step e
    World.run w l

/-! ## Intervals -/

/-- `duration_to_nanos`, `interval.rs:83-87`, of a duration of `d` nanoseconds: `None` above the range of `u64`. -/
def durationToNanos (d : Nat) : Option Nat :=
  if d / 1000000000 * 1000000000 < 2 ^ 64 ∧ d / 1000000000 * 1000000000 + d % 1000000000 < 2 ^ 64 then some d else none

/-- `next_interval`, `interval.rs:89-110`: division by zero, `expect` and `assert!` are panics.  Simplification: the sum of an instant
and a duration does not overflow.  `now.duration_since(prev)` is zero if `prev` is later. -/
def nextInterval (prev now interval : Nat) : Outcome Nat :=
  if prev + interval > now then .ok (prev + interval)
  else
    match durationToNanos (now - prev) with
    | none => .panic
    | some spent =>
      match durationToNanos interval with
      | none => .panic
      | some ns =>
        if ns = 0 then .panic
        else if spent / ns + 1 < 2 ^ 32 then .ok (prev + interval * (spent / ns + 1)) else .panic

/-- `Stream for Interval`, `interval.rs:65-72`, for an interval whose delay is `n`: whether an item is yielded. -/
def World.pollInterval (w : World) (n interval now : Nat) : Outcome (Bool × World) :=
  match w.pollDelay n with
  | .pending => .ok (false, w)
  | _ => do
    let next ← nextInterval (w.when_ n) now interval
    .ok (true, w.reset n next)

/-! ## Smaller steps

The steps of `_reset` and of the timer's thread between which another thread can run. -/

/-- A smaller step, of `ergo-rest/src/wasm_timer/timer.rs:358-468` and `ergo-rest/src/wasm_timer/timer/delay.rs:41-208`. -/
inductive Micro where
  | cas (n : Nat)
  | setAt (n due : Nat)
  | push (n : Nat)
  | take
  | pick
  | apply
  | advance (now : Nat)
  deriving DecidableEq, Repr

/-- One smaller step.  A `cas` that finds the node invalidated stops the reset; that does not happen while the timer exists, of
`ergo-rest/src/wasm_timer/timer.rs:358-468` and `ergo-rest/src/wasm_timer/timer/delay.rs:41-208`. -/
def World.micro (w : World) : Micro → Outcome World
  | .cas n => match w.cas n with
    | some w => .ok w
    | none => .err
  | .setAt n due => .ok (w.setAt n (some due))
  | .push n => .ok (w.push n)
  | .take => .ok w.take
  | .pick => w.pick
  | .apply => w.apply
  | .advance now => w.advance now

/-- A sequence of smaller steps, not in the code: any interleaving of `ergo-rest/src/wasm_timer/timer.rs:358-468` and
`ergo-rest/src/wasm_timer/timer/delay.rs:41-208`. -/
def World.micros (w : World) : List Micro → Outcome World
  | [] => .ok w
  | m :: l => do
    let w ← w.micro m
    World.micros w l

/-- The steps of `_reset` on a delay of a live timer, `delay.rs:129-147`. -/
def resetSteps (n due : Nat) : List Micro := [.cas n, .setAt n due, .push n]

/-- The steps of one round of the thread of the timer when `k` nodes are on its list, `timer/global/desktop.rs:63-65`. -/
def roundSteps (k now : Nat) : List Micro := .take :: (List.replicate k [Micro.pick, Micro.apply]).flatten ++ [.advance now]

/-! ## System time -/

/-- `SystemTime::duration_since`, `wasm.rs:147-153`, in whole milliseconds; `none` is `Err`. -/
def durationSince (self earlier : Nat) : Option Nat := if self < earlier then none else some (self - earlier)

/-- `SystemTime::elapsed`, `wasm.rs:155-157`, at time `now`. -/
def elapsed (self now : Nat) : Option Nat := durationSince self now

end Timer
end Verif
