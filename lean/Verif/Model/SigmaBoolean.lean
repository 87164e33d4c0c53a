import Verif.Model.Vlq
import Verif.Model.Fix
import Verif.Model.EcPoint

/-!
# Sigma propositions: data type, byte codec, normalization

Source: `ergotree-ir/src/sigma_protocol/sigma_boolean.rs`, `…/sigma_boolean/{cand,cor,cthreshold}.rs`,
`ergotree-ir/src/serialization/sigmaboolean.rs`.
-/

namespace Verif

/-- `SigmaBoolean`, `ergotree-ir/src/sigma_protocol/sigma_boolean.rs:32-173`.  `G` is the type of group elements.
Simplification: `SigmaConjectureItems` (`BoundedVec<_, 2, 255>`, line 29) is a plain list here; the bound is the
predicate `SigmaBoolean.Bounded`. -/
inductive SigmaBoolean (G : Type) where
  /-- `TrivialProp(bool)` -/
  | trivial (b : Bool)
  /-- `ProveDlog { h }` -/
  | dlog (h : G)
  /-- `ProveDhTuple { g, h, u, v }` -/
  | dht (g h u v : G)
  /-- `Cand { items }` -/
  | cand (items : List (SigmaBoolean G))
  /-- `Cor { items }` -/
  | cor (items : List (SigmaBoolean G))
  /-- `Cthreshold { k: u8, children }` -/
  | cth (k : Byte) (items : List (SigmaBoolean G))

namespace SigmaBoolean

mutual
/-- Decidable equality (`derive(PartialEq, Eq)`, `sigma_boolean.rs:155`). -/
def beq {G : Type} [DecidableEq G] : SigmaBoolean G → SigmaBoolean G → Bool
  | trivial a, trivial b => a == b
  | dlog a, dlog b => decide (a = b)
  | dht a b c d, dht a' b' c' d' => decide (a = a') && decide (b = b') && decide (c = c') && decide (d = d')
  | cand l, cand l' => beqList l l'
  | cor l, cor l' => beqList l l'
  | cth k l, cth k' l' => decide (k = k') && beqList l l'
  | _, _ => false
/-- List part of `beq`, `ergotree-ir/src/sigma_protocol/sigma_boolean.rs:157`. -/
def beqList {G : Type} [DecidableEq G] : List (SigmaBoolean G) → List (SigmaBoolean G) → Bool
  | [], [] => true
  | a :: l, b :: l' => beq a b && beqList l l'
  | _, _ => false
end

mutual
/-- The invariant of `SigmaConjectureItems = BoundedVec<T, 2, 255>`, `sigma_boolean.rs:29`, in the whole tree. -/
def Bounded {G : Type} : SigmaBoolean G → Prop
  | trivial _ => True
  | dlog _ => True
  | dht _ _ _ _ => True
  | cand l => 2 ≤ l.length ∧ l.length ≤ 255 ∧ BoundedList l
  | cor l => 2 ≤ l.length ∧ l.length ≤ 255 ∧ BoundedList l
  | cth _ l => 2 ≤ l.length ∧ l.length ≤ 255 ∧ BoundedList l
/-- List part of `Bounded`, `ergotree-ir/src/sigma_protocol/sigma_boolean.rs:29`. -/
def BoundedList {G : Type} : List (SigmaBoolean G) → Prop
  | [] => True
  | a :: l => Bounded a ∧ BoundedList l
end

/-- `HasOpCode for SigmaBoolean`, `sigma_boolean.rs:175-190` with the values of
`ergotree-ir/src/serialization/op_code.rs:39,74-76,125-126,130-131,188-190` (`112 + shift`). -/
def opCode {G : Type} : SigmaBoolean G → Byte
  | trivial true => 211
  | trivial false => 210
  | dlog _ => 205
  | dht _ _ _ _ => 206
  | cand _ => 150
  | cor _ => 151
  | cth _ _ => 152

mutual
/-- `SigmaBoolean::sigma_serialize`, `ergotree-ir/src/serialization/sigmaboolean.rs:17-31, 67-69, 78-83`,
`cand.rs:65-68`, `cor.rs:66-69`, `cthreshold.rs:104-110` (`len() as u16`). -/
def ser {G : Type} [DecidableEq G] (pc : PointCodec G) : SigmaBoolean G → Bytes
  | trivial b => [opCode (trivial b : SigmaBoolean G)]
  | dlog h => opCode (dlog h) :: putPoint pc h
  | dht g h u v => opCode (dht g h u v) :: (putPoint pc g ++ putPoint pc h ++ putPoint pc u ++ putPoint pc v)
  | cand l => opCode (cand l) :: (putU16 (BitVec.ofNat 16 l.length) ++ serList pc l)
  | cor l => opCode (cor l) :: (putU16 (BitVec.ofNat 16 l.length) ++ serList pc l)
  | cth k l => opCode (cth k l) :: (putU16 (k.setWidth 16) ++ putU16 (BitVec.ofNat 16 l.length) ++ serList pc l)
/-- `items.iter().try_for_each(|i| i.sigma_serialize(w))`, e.g. `cand.rs:67`. -/
def serList {G : Type} [DecidableEq G] (pc : PointCodec G) : List (SigmaBoolean G) → Bytes
  | [] => []
  | a :: l => ser pc a ++ serList pc l
end

/-- The child list reader shared by `Cand`, `Cor` and `Cthreshold`: `cand.rs:71-78`, `cor.rs:72-79`,
`cthreshold.rs:114-121` (`items.try_into()?` checks 2..=255). -/
def parseItems {G : Type} (p : Parser (SigmaBoolean G)) : Parser (List (SigmaBoolean G)) := do
  let n ← getU16
  let items ← replicateP n.toNat p
  if 2 ≤ items.length ∧ items.length ≤ 255 then pure items else Parser.fail

/-- Body of `SigmaBoolean::sigma_parse`, `ergotree-ir/src/serialization/sigmaboolean.rs:33-63, 71-74, 86-92` and
`cthreshold.rs:112-123` (`get_u16()? as u8`); `p` is the recursive call. -/
def parseBody {G : Type} (pc : PointCodec G) (p : Parser (SigmaBoolean G)) : Parser (SigmaBoolean G) := do
  let op ← getU8
  if op = 205#8 then do
    let h ← getPoint pc
    pure (dlog h)
  else if op = 206#8 then do
    let g ← getPoint pc
    let h ← getPoint pc
    let u ← getPoint pc
    let v ← getPoint pc
    pure (dht g h u v)
  else if op = 150#8 then do
    let items ← parseItems p
    pure (cand items)
  else if op = 151#8 then do
    let items ← parseItems p
    pure (cor items)
  else if op = 152#8 then do
    let k ← getU16
    let items ← parseItems p
    pure (cth (k.setWidth 8) items)
  else if op = 211#8 then pure (trivial true)
  else if op = 210#8 then pure (trivial false)
  else Parser.fail

/-- `SigmaBoolean::sigma_parse`, `ergotree-ir/src/serialization/sigmaboolean.rs:33-63`. -/
def parse {G : Type} (pc : PointCodec G) : Parser (SigmaBoolean G) := fixP (parseBody pc)

/-- `res.try_into().unwrap()` into `SigmaConjectureItems`: panics outside 2..=255,
`ergotree-ir/src/sigma_protocol/sigma_boolean/cand.rs:45`. -/
def toItems {G : Type} (l : List (SigmaBoolean G)) : Outcome (List (SigmaBoolean G)) :=
  if 2 ≤ l.length ∧ l.length ≤ 255 then .ok l else .panic

/-- The loop of `Cand::normalized`, `cand.rs:29-35`; `none` is the early `return it` on a false item. -/
def candLoop {G : Type} : List (SigmaBoolean G) → Option (List (SigmaBoolean G))
  | [] => some []
  | trivial false :: _ => none
  | trivial true :: l => candLoop l
  | it :: l => (candLoop l).map (it :: ·)

/-- The loop of `Cor::normalized`, `cor.rs:30-36`; `none` is the early `return it` on a true item. -/
def corLoop {G : Type} : List (SigmaBoolean G) → Option (List (SigmaBoolean G))
  | [] => some []
  | trivial true :: _ => none
  | trivial false :: l => corLoop l
  | it :: l => (corLoop l).map (it :: ·)

/-- `Cand::normalized`, `cand.rs:27-48`. -/
def candNormalized {G : Type} (items : List (SigmaBoolean G)) : Outcome (SigmaBoolean G) :=
  match candLoop items with
  | none => .ok (trivial false)
  | some [] => .ok (trivial true)
  | some [x] => .ok x
  | some res => do
    let items ← toItems res
    pure (cand items)

/-- `Cor::normalized`, `cor.rs:27-49` (`assert!` at line 28). -/
def corNormalized {G : Type} (items : List (SigmaBoolean G)) : Outcome (SigmaBoolean G) :=
  if items = [] then .panic else
  match corLoop items with
  | none => .ok (trivial true)
  | some [] => .ok (trivial false)
  | some [x] => .ok x
  | some res => do
    let items ← toItems res
    pure (cor items)

/-- `x -= 1` on an unsigned integer: underflow is a panic (in release builds it would wrap),
`ergotree-ir/src/sigma_protocol/sigma_boolean/cthreshold.rs:58-62`. -/
def dec1 : Nat → Outcome Nat
  | 0 => .panic
  | n + 1 => .ok n

/-- Lines 70-80 of `Cthreshold::reduce`, `cthreshold.rs`. -/
def reduceFinish {G : Type} (currK childrenLeft : Nat) (res : List (SigmaBoolean G)) : Outcome (SigmaBoolean G) := do
  let sigmas ← toItems res
  if currK = 1 then corNormalized sigmas
  else if currK = childrenLeft then candNormalized sigmas
  else pure (cth (BitVec.ofNat 8 currK) sigmas)

/-- `SigmaBoolean::TrivialProp` test used by the `match ch` at `cthreshold.rs:56-67`. -/
def asTrivial {G : Type} : SigmaBoolean G → Option Bool
  | trivial b => some b
  | _ => none

/-- The `for` loop of `Cthreshold::reduce`, `cthreshold.rs:43-68`; the third list is `children[i..]`. -/
def reduceLoop {G : Type} (currK childrenLeft : Nat) (res : List (SigmaBoolean G)) :
    List (SigmaBoolean G) → Outcome (SigmaBoolean G)
  | [] => reduceFinish currK childrenLeft res
  | ch :: rest =>
    if currK = 1 then do
      let items ← toItems (res ++ ch :: rest)
      corNormalized items
    else if currK = childrenLeft then do
      let items ← toItems (res ++ ch :: rest)
      candNormalized items
    else
      match asTrivial ch with
      | some true => do
        let left ← dec1 childrenLeft
        let k ← dec1 currK
        reduceLoop k left res rest
      | some false => do
        let left ← dec1 childrenLeft
        reduceLoop currK left res rest
      | none => reduceLoop currK childrenLeft (res ++ [ch]) rest

/-- `Cthreshold::reduce`, `cthreshold.rs:31-81`. -/
def reduce {G : Type} (k : Byte) (children : List (SigmaBoolean G)) : Outcome (SigmaBoolean G) :=
  if k.toNat = 0 then .ok (trivial true)
  else if k.toNat > children.length then .ok (trivial false)
  else reduceLoop k.toNat children.length [] children

end SigmaBoolean
end Verif
