import Verif.Model.Base

/-!
# Finite maps

Stand-in for `std::collections::HashMap`: an association list without duplicate keys (`FMap.Ok`).
Iteration order is the list order; where the Rust result depends on the (unspecified) order, the model takes the
order as an extra parameter.
-/

namespace Verif

/-- A finite map as an association list, e.g. `ergotree-interpreter/src/eval/env.rs:10`. -/
abbrev FMap (κ ν : Type) := List (κ × ν)

namespace FMap
variable {κ ν : Type} [DecidableEq κ]

/-- `HashMap::get`, e.g. `ergotree-interpreter/src/eval/env.rs:44-46`. -/
def get : FMap κ ν → κ → Option ν
  | [], _ => none
  | (k', v) :: m, k => if k' = k then some v else get m k

/-- `HashMap::insert` (also the effect of assigning through `get_mut`), e.g. `ergotree-interpreter/src/eval/env.rs:34-36`. -/
def insert : FMap κ ν → κ → ν → FMap κ ν
  | [], k, v => [(k, v)]
  | (k', v') :: m, k, v => if k' = k then (k, v) :: m else (k', v') :: insert m k v

/-- `HashMap::remove`, e.g. `ergotree-interpreter/src/eval/env.rs:39-41`. -/
def erase : FMap κ ν → κ → FMap κ ν
  | [], _ => []
  | (k', v') :: m, k => if k' = k then erase m k else (k', v') :: erase m k

/-- `HashMap::contains_key`, e.g. `ergo-lib/src/wallet/box_selector/simple.rs:64`. -/
def contains (m : FMap κ ν) (k : κ) : Bool := (get m k).isSome

/-- `HashMap::eq`: same number of entries and every entry of the first is in the second, `ergotree-interpreter/src/eval/env.rs:8-11`
derives it. -/
def mapEq [DecidableEq ν] (m n : FMap κ ν) : Bool :=
  decide (m.length = n.length) && m.all fun p => decide (get n p.1 = some p.2)

/-- No duplicate keys, true of every `HashMap`, e.g. `ergotree-interpreter/src/eval/env.rs:10`. -/
def Ok (m : FMap κ ν) : Prop := (m.map Prod.fst).Nodup

end FMap
end Verif
