import Verif.Model.Eval

/-!
# Collections of scripts: what the operations should give

Collections are lists here, indices are integers.
-/

namespace Verif.Spec
variable {G B : Type}

/-- `v` is the collection of the items `l` of element type `t`.  Byte collections have their own representation. -/
inductive IsColl : Value G B → SType → List (Value G B) → Prop where
  | bytes (b : Bytes) : IsColl (.collByte b) .byte (b.map .byte)
  | items (t : SType) (l : List (Value G B)) (h : t ≠ .byte) : IsColl (.coll t l) t l

/-- Items that a collection with element type `t` can hold: bytes for `Coll[Byte]` (nothing is asked of other items). -/
def Fit (t : SType) (l : List (Value G B)) : Prop := t = .byte → ∀ v ∈ l, ∃ b, v = .byte b

/-- The item at an integer index. -/
def itemAt (l : List (Value G B)) (i : Int) : Option (Value G B) := if 0 ≤ i then l[i.toNat]? else none

/-- The last pair with first component `j`. -/
def lastUpdate (ups : List (Int × Value G B)) (j : Nat) : Option (Value G B) :=
  (ups.reverse.find? fun p => decide (p.1 = (j : Int))).map Prod.snd

/-- The lambda `f` computes `g` on the values in `P`, in an environment `env`, whatever the cost so far, and leaves the
environment as it was. -/
def Computes (ev : Ev G B) (env : FMap (BitVec 32) (Value G B)) (f : Value G B) (P : Value G B → Prop)
    (g : Value G B → Value G B) : Prop :=
  ∀ x, P x → ∀ c, ∃ c', callLam ev f x { env := env, cost := c } = .ok (g x, { env := env, cost := c' })

end Verif.Spec
