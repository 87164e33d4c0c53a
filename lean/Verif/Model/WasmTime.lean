import Verif.Model.Base

/-!
# The clocks of the browser build

Source: `ergo-rest/src/wasm_timer/wasm.rs`, `ergo-rest/src/wasm_timer/timer/interval.rs`.

Points in time and durations are in nanoseconds.  The code holds a point in time as a floating point number of milliseconds; the
rounding of its additions is not modelled, nor NaN.
-/

namespace Verif.WasmTime

/-- Nanoseconds in a millisecond, for `wasm.rs:80, 172`. -/
def milli : Nat := 1000000

/-- `Duration::from_millis(ms as u64)` of a difference that is not negative, `wasm.rs:103, 151`: the fraction of a millisecond is
dropped, the cast goes to the largest number at most. -/
def fromMillis (d : Nat) : Nat := min (d / milli) (2 ^ 64 - 1) * milli

/-- `Add<Duration>` of `Instant` and of `SystemTime`, `wasm.rs:76-85, 168-177`; `checked_add` is the same, `wasm.rs:159-161`. -/
def add (t : Int) (d : Nat) : Int := t + ((d / milli : Nat) : Int) * milli

/-- `Sub<Duration>`, `wasm.rs:87-96, 179-188`; `checked_sub` is the same, `wasm.rs:163-165`. -/
def sub (t : Int) (d : Nat) : Int := t - ((d / milli : Nat) : Int) * milli

/-- `Sub<Instant>` and `Instant::duration_since`, `wasm.rs:66-68, 98-105`. -/
def since (t earlier : Int) : Outcome Nat := if 0 ≤ t - earlier then .ok (fromMillis (t - earlier).toNat) else .panic

/-- `Instant::elapsed`, `wasm.rs:70-72`, at the time `now`. -/
def elapsed (now t : Int) : Outcome Nat := since now t

/-- `SystemTime::duration_since`, `wasm.rs:146-152`. -/
def sysSince (t earlier : Int) : Outcome Nat := if t - earlier < 0 then .err else .ok (fromMillis (t - earlier).toNat)

/-- `SystemTime::elapsed`, `wasm.rs:154-156`, at the time `now`. -/
def sysElapsed (now t : Int) : Outcome Nat := sysSince t now

/-- `duration_to_nanos`, `interval.rs:83-87`. -/
def toNanos (d : Nat) : Option Nat := if d < 2 ^ 64 then some d else none

/-- `next_interval`, `interval.rs:89-110`, on `Instant` of the browser. -/
def nextInterval (prev now : Int) (interval : Nat) : Outcome Int :=
  let new := add prev interval
  if new > now then .ok new
  else do
    let d ← since now prev
    match toNanos d, toNanos interval with
    | some spent, some i =>
      if i = 0 then .panic
      else
        let mult := spent / i + 1
        if mult < 2 ^ 32 then pure (add prev (interval * mult)) else .panic
    | _, _ => .panic

end Verif.WasmTime
