import Verif.Spec.Constant
import Verif.Spec.SType
import Verif.Model.Transaction
import Verif.Model.Fix

/-!
# Which boxes and transactions the codec is about

The invariants of the Rust types (lengths, bounds) and, for constants, being of the declared type.
-/

namespace Verif.Spec
variable {G B T : Type}

/-- The writer is defined on all good values and the reader inverts it, in every stream. -/
def Rto {α : Type} (P : α → Prop) (ser : α → Outcome Bytes) (p : Parser α) : Prop :=
  ∀ a, P a → ∃ bs, ser a = .ok bs ∧ ∀ rest, p (bs ++ rest) = some (a, rest)

/-- A constant of a serializable type, well typed. -/
def GoodConst (utf8 : Bytes → Bool) (bwf : B → Prop) (c : Constant G B) : Prop :=
  WfType utf8 c.tpe ∧ NoFunc c.tpe ∧ WellTyped bwf c.v c.tpe

/-- What is assumed of the codecs that are parameters: they round-trip on good boxes and trees and never return more bytes
than they were given. -/
structure GoodSers (E : Sers G B T) (bwf : B → Prop) (twf : T → Prop) : Prop where
  box : BoxRoundTrips E.bc bwf
  boxNE : NonExp E.bc.parse
  tree : Rto twf E.tc.ser E.tc.parse
  treeNE : NonExp E.tc.parse

mutual
/-- Constants, and tuples with 2..255 good items. -/
def GoodItem (utf8 : Bytes → Bool) (bwf : B → Prop) : RItem G B → Prop
  | .const c => GoodConst utf8 bwf c
  | .tuple l => 2 ≤ l.length ∧ l.length ≤ 255 ∧ GoodItems utf8 bwf l
/-- List part of `GoodItem`. -/
def GoodItems (utf8 : Bytes → Bool) (bwf : B → Prop) : List (RItem G B) → Prop
  | [] => True
  | x :: l => GoodItem utf8 bwf x ∧ GoodItems utf8 bwf l
end

/-- A register value that can be put into a box. -/
def GoodReg (utf8 : Bytes → Bool) (bwf : B → Prop) : RegVal G B → Prop
  | .parsed c => GoodConst utf8 bwf c
  | .tupleExpr l => 2 ≤ l.length ∧ l.length ≤ 255 ∧ GoodItems utf8 bwf l
  | .invalid _ => False

/-- At most six good registers. -/
def GoodRegs (utf8 : Bytes → Bool) (bwf : B → Prop) (rs : Regs G B) : Prop :=
  rs.length ≤ 6 ∧ ∀ v ∈ rs, GoodReg utf8 bwf v

/-- A 32 byte id and an amount within the bounds of `TokenAmount`. -/
def GoodToken (t : Token) : Prop := t.1.length = 32 ∧ 1 ≤ t.2 ∧ t.2 ≤ 2 ^ 63 - 1

/-- No tokens, or 1..122 good tokens. -/
def GoodTokens : Option (List Token) → Prop
  | none => True
  | some l => 1 ≤ l.length ∧ l.length ≤ 122 ∧ ∀ t ∈ l, GoodToken t

/-- A box candidate within the bounds of its Rust type; `twf` says which ErgoTrees are fine. -/
structure GoodCand (utf8 : Bytes → Bool) (bwf : B → Prop) (twf : T → Prop) (c : BoxCand G B T) : Prop where
  value : 10800 ≤ c.value ∧ c.value ≤ 2 ^ 63 - 1
  tree : twf c.tree
  tokens : GoodTokens c.tokens
  regs : GoodRegs utf8 bwf c.regs

/-- A box: a good candidate, a 32 byte transaction id, and the id computed by the library (the id field is private). -/
structure GoodBox [DecidableEq G] (E : Sers G B T) (bwf : B → Prop) (twf : T → Prop) (b : EBox G B T) : Prop where
  cand : GoodCand E.utf8 bwf twf b.toCand
  txId : b.txId.length = 32
  id : b.calcId E = .ok b.boxId

/-- A context extension: distinct keys, at most 255 of them, good constants. -/
structure GoodExt (utf8 : Bytes → Bool) (bwf : B → Prop) (m : Extension G B) : Prop where
  keys : m.Ok
  count : m.length ≤ 255
  consts : ∀ p ∈ m, GoodConst utf8 bwf p.2

/-- A proof: empty, or 1..65535 bytes. -/
def GoodProof : ProofBytes → Prop
  | .empty => True
  | .some b => 1 ≤ b.length ∧ b.length ≤ 65535

/-- A transaction input. -/
structure GoodInput (utf8 : Bytes → Bool) (bwf : B → Prop) (i : Input G B) : Prop where
  boxId : i.boxId.length = 32
  proof : GoodProof i.proof.proof
  ext : GoodExt utf8 bwf i.proof.extension

/-- No data inputs, or 1..65535 ids of 32 bytes. -/
def GoodData : Option (List Bytes) → Prop
  | none => True
  | some l => 1 ≤ l.length ∧ l.length ≤ 65535 ∧ ∀ d ∈ l, d.length = 32

/-- The parts of a transaction, within the bounds of `TxIoVec`. -/
structure GoodParts (utf8 : Bytes → Bool) (bwf : B → Prop) (twf : T → Prop) (inputs : List (Input G B))
    (dataInputs : Option (List Bytes)) (cands : List (BoxCand G B T)) : Prop where
  inputsCount : 1 ≤ inputs.length ∧ inputs.length ≤ 65535
  inputs : ∀ i ∈ inputs, GoodInput utf8 bwf i
  dataInputs : GoodData dataInputs
  candsCount : 1 ≤ cands.length ∧ cands.length ≤ 65535
  cands : ∀ c ∈ cands, GoodCand utf8 bwf twf c

/-- A transaction the library can hold: good parts, and the id and outputs as computed by the constructor (the fields are
private). -/
structure GoodTx [DecidableEq G] (E : Sers G B T) (bwf : B → Prop) (twf : T → Prop) (t : Tx G B T) : Prop where
  parts : GoodParts E.utf8 bwf twf t.inputs t.dataInputs t.cands
  made : Tx.new E t.inputs t.dataInputs t.cands = .ok t

/-- What a transaction id is meant to stand for: which boxes are spent with which context variables, which boxes are read,
which boxes are created. -/
def essence (t : Tx G B T) : List (Bytes × Extension G B) × Option (List Bytes) × List (BoxCand G B T) :=
  (t.inputs.map fun i => (i.boxId, i.proof.extension), t.dataInputs, t.cands)

end Verif.Spec
