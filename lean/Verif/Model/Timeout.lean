import Verif.Model.Timer

/-!
# Futures and streams with a timeout

Source: `ergo-rest/src/wasm_timer/timer/ext.rs`.  The wrapped future or stream is what it answers when polled: `none` is pending.
-/

namespace Verif
namespace Timer
variable {R : Type}

/-- What a future or stream with a timeout answers: what the wrapped one does, or the error `TimedOut`, `ext.rs:83-94, 156-174`. -/
inductive Yield (R : Type) where
  | inner (r : R)
  | timedOut
  deriving DecidableEq, Repr

/-- `Future for Timeout`, `ext.rs:82-94`, with the delay `n`; `is_ready` holds for an error of the delay too. -/
def World.pollTimeout (w : World) (n : Nat) (inner : Option R) : Option (Yield R) :=
  match inner with
  | some r => some (.inner r)
  | none =>
    match w.pollDelay n with
    | .pending => none
    | _ => some .timedOut

/-- `Stream for TimeoutStream`, `ext.rs:153-175`, at the time `now`; an answer of the wrapped stream, the end included, resets the delay. -/
def World.pollStream (w : World) (n dur now : Nat) (inner : Option R) : Option (Yield R) × World :=
  match inner with
  | some r => (some (.inner r), w.reset n (now + dur))
  | none =>
    match w.pollDelay n with
    | .pending => (none, w)
    | _ => (some .timedOut, w.reset n (now + dur))

/-- A call on the timer or another delay, or the stream is polled at a time when the wrapped one answers `inner`; any use of
`ergo-rest/src/wasm_timer/timer/ext.rs:153-175`. -/
inductive SEv (R : Type) where
  | ev (e : Ev)
  | poll (now : Nat) (inner : Option R)
  deriving DecidableEq, Repr

/-- One such step, and what the stream answers; for `ergo-rest/src/wasm_timer/timer/ext.rs:153-175`. -/
def World.streamStep (w : World) (n dur : Nat) : SEv R → Outcome (Option (Yield R) × World)
  | .ev e => do
    let w ← w.step e
    .ok (none, w)
  | .poll now inner => .ok (w.pollStream n dur now inner)

/-- A sequence of steps, and what the stream answers at each; for `ergo-rest/src/wasm_timer/timer/ext.rs:153-175`. -/
def World.streamRun (w : World) (n dur : Nat) : List (SEv R) → Outcome (List (Option (Yield R)) × World)
  | [] => .ok ([], w)
  | e :: l => do
    let (y, w) ← w.streamStep n dur e
    let (ys, w) ← World.streamRun w n dur l
    .ok (y :: ys, w)

end Timer
end Verif
