import Verif.Spec.Json
import Verif.Spec.JsonChain
import Verif.Model.Eip12

/-!
# The JSON forms, spelled out

The names and shapes of the JSON objects as the Ergo node, its explorer and EIP-12 know them, in plain strings.
-/

namespace Verif.Spec
variable {G B T : Type}

/-- An object with these fields, in this order. -/
def fields (l : List (String × Json)) : Json := .obj (l.map fun p => (p.1.toList, p.2))

/-- A given text. -/
def lit (s : String) : Json := .str s.toList

/-- Two hexadecimal digits per byte. -/
def hexText (b : Bytes) : Text :=
  b.flatMap fun x => ["0123456789abcdef".toList.getD (x.toNat / 16) '?', "0123456789abcdef".toList.getD (x.toNat % 16) '?']

/-- Bytes in hexadecimal. -/
def hex (b : Bytes) : Json := .str (hexText b)

/-- A number as a number. -/
def asNumber (n : Nat) : Json := .num (.nat n)

/-- A number as a text. -/
def asText (n : Nat) : Json := .str (toString n).toList

/-- `null` or a value. -/
def orNull (j : Option Json) : Json := j.getD .null

/-- The object with every field `a` called `b`. -/
def renamed (a b : String) (o : List (Text × Json)) : List (Text × Json) :=
  o.map fun p => if p.1 = a.toList then (b.toList, p.2) else p

/-! ## Boxes; `amt` says how amounts are written -/

/-- The registers R4, R5, … with their serialized values, in any order. -/
def RegForm [DecidableEq G] (E : Sers G B T) (rs : Regs G B) (o : List (Text × Json)) : Prop :=
  ∃ bs : List Bytes, List.Forall₂ (fun v b => v.serBytes E = .ok b) rs bs ∧ rs.length ≤ 6 ∧
    o.Perm (List.zip (["R4", "R5", "R6", "R7", "R8", "R9"].map String.toList) (bs.map hex))

/-- A token. -/
def tokenForm (amt : Nat → Json) (t : Token) : Json := fields [("tokenId", hex t.1), ("amount", amt t.2)]

/-- A box candidate. -/
def CandForm [DecidableEq G] (amt : Nat → Json) (E : Sers G B T) (c : BoxCand G B T) (j : Json) : Prop :=
  ∃ tree regs, E.tc.ser c.tree = .ok tree ∧ RegForm E c.regs regs ∧
    j = fields [("value", amt c.value), ("ergoTree", hex tree), ("assets", .arr ((c.tokens.getD []).map (tokenForm amt))),
      ("additionalRegisters", .obj regs), ("creationHeight", asNumber c.height.toNat)]

/-- A box. -/
def BoxForm [DecidableEq G] (amt : Nat → Json) (E : Sers G B T) (b : EBox G B T) (j : Json) : Prop :=
  ∃ tree regs, E.tc.ser b.tree = .ok tree ∧ RegForm E b.regs regs ∧
    j = fields [("boxId", hex b.boxId), ("value", amt b.value), ("ergoTree", hex tree),
      ("assets", .arr ((b.tokens.getD []).map (tokenForm amt))), ("additionalRegisters", .obj regs),
      ("creationHeight", asNumber b.height.toNat), ("transactionId", hex b.txId), ("index", asNumber b.index.toNat)]

/-! ## Transactions -/

/-- The context variables by their numbers, in the order of the map. -/
def ExtForm [DecidableEq G] (E : Sers G B T) (m : Extension G B) (j : Json) : Prop :=
  ∃ o : List (Text × Json), j = .obj o ∧
    List.Forall₂ (fun p e => ∃ b, p.2.ser E.pc E.bc = .ok b ∧ e = ((toString p.1.toNat).toList, hex b)) m o

/-- A signed input. -/
def InputForm [DecidableEq G] (E : Sers G B T) (i : Input G B) (j : Json) : Prop :=
  ∃ e, ExtForm E i.proof.extension e ∧
    j = fields [("boxId", hex i.boxId), ("spendingProof", fields [("proofBytes", hex i.proof.proof.toBytes), ("extension", e)])]

/-- An unsigned input. -/
def UnsignedInputForm [DecidableEq G] (E : Sers G B T) (i : UnsignedInput G B) (j : Json) : Prop :=
  ∃ e, ExtForm E i.extension e ∧ j = fields [("boxId", hex i.boxId), ("extension", e)]

/-- The data inputs. -/
def dataForm (d : Option (List Bytes)) : Json := .arr ((d.getD []).map fun b => fields [("boxId", hex b)])

/-- A signed transaction. -/
def TxForm [DecidableEq G] (amt : Nat → Json) (E : Sers G B T) (t : Tx G B T) (j : Json) : Prop :=
  ∃ is os, List.Forall₂ (InputForm E) t.inputs is ∧ List.Forall₂ (BoxForm amt E) t.outputs os ∧
    j = fields [("id", hex t.txId), ("inputs", .arr is), ("dataInputs", dataForm t.dataInputs), ("outputs", .arr os)]

/-- An unsigned transaction. -/
def UnsignedTxForm [DecidableEq G] (amt : Nat → Json) (E : Sers G B T) (u : UnsignedTransaction G B T) (j : Json) : Prop :=
  ∃ is os, List.Forall₂ (UnsignedInputForm E) u.inputs is ∧ List.Forall₂ (CandForm amt E) u.cands os ∧
    j = fields [("inputs", .arr is), ("dataInputs", dataForm u.dataInputs), ("outputs", .arr os)]

/-! ## Headers and proofs -/

/-- A header. -/
def headerForm [DecidableEq G] (pc : PointCodec G) (h : Header G) : Json :=
  fields [("version", asNumber h.version.toNat), ("id", hex h.id), ("parentId", hex h.parentId), ("adProofsRoot", hex h.adProofsRoot),
    ("stateRoot", hex h.stateRoot), ("transactionsRoot", hex h.transactionRoot), ("timestamp", asNumber h.timestamp.toNat),
    ("nBits", asNumber h.nBits.toNat), ("height", asNumber h.height.toNat), ("extensionHash", hex h.extensionRoot),
    ("powSolutions", fields [("pk", hex (putPoint pc h.solution.minerPk)),
      ("w", orNull (h.solution.onetimePk.map fun g => hex (putPoint pc g))), ("n", hex h.solution.nonce),
      ("d", orNull (h.solution.distance.map fun i => .str (toString i).toList))]),
    ("votes", hex h.votes)]

/-- The hash at a level, or the empty text. -/
def levelForm (l : Merkle.LevelNode) : Json :=
  match l.hash with
  | some b => hex b
  | none => lit ""

/-- Left is 0, right is 1. -/
def sideForm : Merkle.Side → Json
  | .left => asNumber 0
  | .right => asNumber 1

/-- A proof of many leaves. -/
def batchForm (p : Merkle.Batch) : Json :=
  fields [("indices", .arr (p.indices.map fun x => fields [("index", asNumber x.index), ("digest", hex x.hash)])),
    ("proofs", .arr (p.proofs.map fun l => fields [("digest", levelForm l), ("side", sideForm l.side)]))]

/-- A header with its interlinks. -/
def popowForm [DecidableEq G] (pc : PointCodec G) (p : PoPowHeader G) : Json :=
  fields [("header", headerForm pc p.header), ("interlinks", .arr (p.interlinks.map hex)), ("interlinksProof", batchForm p.proof)]

/-! ## Hints -/

/-- A commitment, inside of its hint. -/
def msgForm [DecidableEq G] (pc : PointCodec G) : Sigma.Msg G → List (String × Json)
  | .dlog a => [("type", lit "dlog"), ("a", hex (putPoint pc a))]
  | .dht a b => [("type", lit "dht"), ("a", hex (putPoint pc a)), ("b", hex (putPoint pc b))]

/-- A position: the numbers with dashes between them. -/
def positionForm (p : Sigma.Position) : Json := .str (List.intercalate ['-'] (p.map fun n => (toString n).toList))

/-! ## Numbers -/

mutual
/-- Every number in the value is an unsigned integer below the bound. -/
def NumbersBelow (n : Nat) : Json → Prop
  | .num (.nat k) => k < n
  | .num _ => False
  | .arr l => NumbersBelowAll n l
  | .obj o => NumbersBelowFields n o
  | _ => True
/-- See `NumbersBelow`. -/
def NumbersBelowAll (n : Nat) : List Json → Prop
  | [] => True
  | j :: l => NumbersBelow n j ∧ NumbersBelowAll n l
/-- See `NumbersBelow`. -/
def NumbersBelowFields (n : Nat) : List (Text × Json) → Prop
  | [] => True
  | p :: l => NumbersBelow n p.2 ∧ NumbersBelowFields n l
end

end Verif.Spec
