import Verif.Spec.Box
import Verif.Model.Json

/-!
# Which values the JSON forms are about

The invariants of the Rust types as far as JSON is concerned.  They are wider than those of the binary codec: JSON carries every
`u64` as value and amount, and registers that are no serialized values.
-/

namespace Verif.Spec
variable {G B T : Type}

/-- A good register value, or bytes that are no register value. -/
def JsonReg (E : Sers G B T) (bwf : B → Prop) : RegVal G B → Prop
  | .invalid b => RItem.parse E b = none
  | v => GoodReg E.utf8 bwf v

/-- No tokens, or 1..122 tokens with 32 byte ids and `u64` amounts. -/
def JsonTokens : Option (List Token) → Prop
  | none => True
  | some l => 1 ≤ l.length ∧ l.length ≤ 122 ∧ ∀ t ∈ l, t.1.length = 32 ∧ t.2 < 2 ^ 64

/-- A box candidate. -/
structure JsonCand (E : Sers G B T) (bwf : B → Prop) (twf : T → Prop) (c : BoxCand G B T) : Prop where
  value : c.value < 2 ^ 64
  tree : twf c.tree
  tokens : JsonTokens c.tokens
  regs : c.regs.length ≤ 6 ∧ ∀ v ∈ c.regs, JsonReg E bwf v

/-- A box: the id is the one computed by the library. -/
structure JsonBox [DecidableEq G] (E : Sers G B T) (bwf : B → Prop) (twf : T → Prop) (b : EBox G B T) : Prop where
  cand : JsonCand E bwf twf b.toCand
  txId : b.txId.length = 32
  id : b.calcId E = .ok b.boxId

/-- What is assumed of `ErgoTree::sigma_parse_bytes`: it reads what the writer of trees writes. -/
def TreeText (E : Sers G B T) (tp : Bytes → Option T) (twf : T → Prop) : Prop :=
  ∀ t, twf t → ∃ bs, E.tc.ser t = .ok bs ∧ tp bs = some t

/-- The iteration order of a hash map: any order of its entries. -/
def IsOrder (ord : List (Text × Json) → List (Text × Json)) : Prop := ∀ l, (ord l).Perm l

/-- A context extension: distinct variables, good constants. -/
structure JsonExt (E : Sers G B T) (bwf : B → Prop) (m : Extension G B) : Prop where
  keys : m.Ok
  consts : ∀ p ∈ m, GoodConst E.utf8 bwf p.2

/-- A proof that is not the empty byte string under the wrong name. -/
def JsonProof : ProofBytes → Prop
  | .empty => True
  | .some b => b ≠ []

/-- The parts of a transaction. -/
structure JsonParts (E : Sers G B T) (bwf : B → Prop) (twf : T → Prop) (inputs : List (Input G B))
    (dataInputs : Option (List Bytes)) (cands : List (BoxCand G B T)) : Prop where
  inputsCount : 1 ≤ inputs.length ∧ inputs.length ≤ 65535
  inputs : ∀ i ∈ inputs, i.boxId.length = 32 ∧ JsonProof i.proof.proof ∧ JsonExt E bwf i.proof.extension
  dataInputs : GoodData dataInputs
  candsCount : 1 ≤ cands.length ∧ cands.length ≤ 65535
  cands : ∀ c ∈ cands, JsonCand E bwf twf c

end Verif.Spec
