import Verif.Model.Timer

/-!
# What a delay should do

A delay on its own, without other delays, heaps or generations.  Only the names of the calls (`Ev`) are shared with the model.
-/

namespace Verif
namespace Spec
namespace Timer
open Verif.Timer

/-- A delay: not created yet; live, with its deadline, whether the timer has been polled since the deadline was set, and whether it has
resolved since then; dropped. -/
inductive Delay where
  | absent
  | live (due : Nat) (seen done : Bool)
  | dropped
  deriving DecidableEq, Repr

/-- What a call means for the delay `n`. -/
def Delay.step (n : Nat) : Delay → Ev → Delay
  | .absent, .create m due => if m = n then .live due false false else .absent
  | .live d s f, .reset m due => if m = n then .live due false false else .live d s f
  | .live d s f, .dropDelay m => if m = n then .dropped else .live d s f
  | .live d _ f, .pollTimer => .live d true f
  | .live d s f, .advance now => .live d s (f || (s && decide (d ≤ now)))
  | x, _ => x

/-- The delay `n` after a sequence of calls. -/
def delay (n : Nat) (l : List Ev) : Delay := l.foldl (Delay.step n) .absent

/-- A program can make this call: a delay is created under a new name, and only a delay that exists is reset or dropped. -/
def Allowed (σ : Nat → Delay) : Ev → Prop
  | .create n _ => σ n = .absent
  | .reset n _ => ∃ d s f, σ n = .live d s f
  | .dropDelay n => ∃ d s f, σ n = .live d s f
  | .pollTimer => True
  | .advance _ => True
  | .dropTimer => False

/-- A program that does not drop the timer can make these calls. -/
def Program (l : List Ev) : Prop := ∀ pre e post, l = pre ++ e :: post → Allowed (fun n => delay n pre) e

/-- The call sets or ends the deadline of `n`. -/
def Touches (n : Nat) : Ev → Prop
  | .create m _ => m = n
  | .reset m _ => m = n
  | .dropDelay m => m = n
  | _ => False

/-- After `l` the timer was polled and later advanced to `due` or beyond. -/
def Reached (due : Nat) (l : List Ev) : Prop :=
  ∃ a b c now, l = a ++ .pollTimer :: (b ++ .advance now :: c) ∧ due ≤ now

/-- What happens to an interval: a call that does not concern it, or the interval is polled. -/
inductive IEv where
  | ev (e : Ev)
  | poll (now : Nat)
  deriving DecidableEq, Repr

/-- An interval of `i` whose delay is `n`: the calls on the timer and its delays that are made, how many items are yielded, and the
world after. -/
def intervalRun (n i : Nat) (w : World) : List IEv → Outcome (List Ev × Nat × World)
  | [] => .ok ([], 0, w)
  | .ev e :: l => do
    let w ← w.step e
    let (tr, y, w) ← intervalRun n i w l
    .ok (e :: tr, y, w)
  | .poll now :: l => do
    let (item, w) ← w.pollInterval n i now
    let (tr, y, w') ← intervalRun n i w l
    .ok (if item then (.reset n (w.when_ n) :: tr, y + 1, w') else (tr, y, w'))

/-- `l` is `a` and `b` run in parallel. -/
inductive Interleave {α : Type} : List α → List α → List α → Prop where
  | nil : Interleave [] [] []
  | left {x : α} {a b l : List α} : Interleave a b l → Interleave (x :: a) b (x :: l)
  | right {x : α} {a b l : List α} : Interleave a b l → Interleave a (x :: b) (x :: l)

end Timer
end Spec
end Verif
