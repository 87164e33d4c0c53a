import Verif.Model.Constant

/-!
# Rust values as constants

Source: `ergotree-ir/src/mir/constant.rs:364-579` (`Into<Constant>`), `:581-850` (`TryExtractFrom`),
`ergotree-ir/src/mir/value.rs:308-326` (`StoreWrapped`), `ergotree-ir/src/types/stype.rs:157-274` (`LiftIntoSType`).

A Rust type with these conversions is a code `RTy`; its values are `RTy.Val`.  Trait resolution is replaced by recursion over the
code.
-/

namespace Verif

/-- The Rust types that can be turned into a constant and extracted from one, `mir/constant.rs:364-579, 611-850`.  `bytes` is
`Vec<i8>` and `Vec<u8>` (bytes are bit vectors here, so the two are one), `digest` is `Digest32` and `TokenId`, `box` is `ErgoBox` and
`Arc<ErgoBox>`, `sigmaProp` is `SigmaProp`. -/
inductive RTy where
  | unit
  | bool
  | i8
  | i16
  | i32
  | i64
  | bigInt
  | point
  | sigmaProp
  | avlTree
  | box
  | bytes
  | digest
  | vec (t : RTy)
  | opt (t : RTy)
  | tup (ts : List RTy)

namespace RTy

mutual
/-- The values of a Rust type.  `BigInt256` is an integer within its range, as in `Model/BigInt.lean`,
`ergotree-ir/src/mir/constant.rs:364-579, 611-850`. -/
def Val (G B : Type) : RTy → Type
  | .unit => Unit
  | .bool => Bool
  | .i8 => BitVec 8
  | .i16 => BitVec 16
  | .i32 => BitVec 32
  | .i64 => BitVec 64
  | .bigInt => Int
  | .point => G
  | .sigmaProp => SigmaBoolean G
  | .avlTree => AvlTreeData
  | .box => B
  | .bytes => List (BitVec 8)
  | .digest => { b : Bytes // b.length = 32 }
  | .vec t => List (Val G B t)
  | .opt t => Option (Val G B t)
  | .tup ts => Vals G B ts
/-- The items of a tuple, `ergotree-ir/src/mir/constant.rs:568-579, 829-850`. -/
def Vals (G B : Type) : List RTy → Type
  | [] => Unit
  | t :: ts => Val G B t × Vals G B ts
end

mutual
/-- Which types are `LiftIntoSType`, `types/stype.rs:164-274`; tuples have two to four items. -/
def lift : RTy → Bool
  | .unit => false
  | .digest => false
  | .vec t => lift t
  | .opt t => lift t
  | .tup ts => liftAll ts && (2 ≤ ts.length && ts.length ≤ 4)
  | _ => true
/-- The items of a tuple, `types/stype.rs:164-274`. -/
def liftAll : List RTy → Bool
  | [] => true
  | t :: ts => lift t && liftAll ts
end

mutual
/-- Which types are `StoreWrapped`, `mir/value.rs:308-326`. -/
def wrapped : RTy → Bool
  | .bool => true
  | .i16 => true
  | .i32 => true
  | .i64 => true
  | .bigInt => true
  | .point => true
  | .sigmaProp => true
  | .bytes => true
  | .vec _ => true
  | .opt t => wrapped t
  | .tup ts => wrappedAll ts && (2 ≤ ts.length && ts.length ≤ 4)
  | _ => false
/-- The items of a tuple, `mir/value.rs:308-326`. -/
def wrappedAll : List RTy → Bool
  | [] => true
  | t :: ts => wrapped t && wrappedAll ts
end

mutual
/-- Which types are both `Into<Constant>` and `TryExtractFrom<Literal>`: the bounds of the implementations for `Vec`, `Option` and
tuples, `mir/constant.rs:487, 499, 568-569, 719, 817, 829-830`. -/
def conv : RTy → Bool
  | .vec t => conv t && (lift t && wrapped t)
  | .opt t => conv t && lift t
  | .tup ts => convAll ts && (2 ≤ ts.length && ts.length ≤ 4)
  | _ => true
/-- The items of a tuple, `ergotree-ir/src/mir/constant.rs:568-569, 829-830`. -/
def convAll : List RTy → Bool
  | [] => true
  | t :: ts => conv t && convAll ts
end

mutual
/-- `LiftIntoSType::stype`, `types/stype.rs:164-274`.  `()` and `Digest32` have none; the types of their constants are given
(`mir/constant.rs:367, 466`). -/
def stype : RTy → SType
  | .unit => .unit
  | .bool => .bool
  | .i8 => .byte
  | .i16 => .short
  | .i32 => .int
  | .i64 => .long
  | .bigInt => .bigInt
  | .point => .groupElement
  | .sigmaProp => .sigmaProp
  | .avlTree => .avlTree
  | .box => .box
  | .bytes => .coll .byte
  | .digest => .coll .byte
  | .vec t => .coll (stype t)
  | .opt t => .option (stype t)
  | .tup ts => .tuple (stypes ts)
/-- The items of a tuple, `types/stype.rs:164-274`. -/
def stypes : List RTy → List SType
  | [] => []
  | t :: ts => stype t :: stypes ts
end

section
variable {G B : Type}

mutual
/-- `Into<Constant>`, `mir/constant.rs:364-564, 568-579`. -/
def toConst : (t : RTy) → Val G B t → Constant G B
  | .unit, _ => ⟨.unit, .unit⟩
  | .bool, b => ⟨.bool, .bool b⟩
  | .i8, v => ⟨.byte, .byte v⟩
  | .i16, v => ⟨.short, .short v⟩
  | .i32, v => ⟨.int, .int v⟩
  | .i64, v => ⟨.long, .long v⟩
  | .bigInt, v => ⟨.bigInt, .bigInt v⟩
  | .point, g => ⟨.groupElement, .groupElement g⟩
  | .sigmaProp, p => ⟨.sigmaProp, .sigmaProp p⟩
  | .avlTree, a => ⟨.avlTree, .avlTree a⟩
  | .box, b => ⟨.box, .box b⟩
  | .bytes, l => ⟨.coll .byte, .collByte l⟩
  | .digest, d => ⟨.coll .byte, .collByte d.1⟩
  | .vec t, l => ⟨stype (.vec t), .coll (stype t) (List.map (fun x => (toConst t x).v) l)⟩
  | .opt t, none => ⟨.option (stype t), .none⟩
  | .opt t, some x => ⟨.option (stype t), .some (toConst t x).v⟩
  | .tup ts, x => ⟨.tuple ((toConsts ts x).map Constant.tpe), .tup ((toConsts ts x).map Constant.v)⟩
/-- The constants of the items of a tuple, `mir/constant.rs:571`. -/
def toConsts : (ts : List RTy) → Vals G B ts → List (Constant G B)
  | [], _ => []
  | t :: ts, x => toConst t x.1 :: toConsts ts x.2
end

/-- `.map(T::try_extract_from).collect()`, `mir/constant.rs:726`. -/
def extractItems {α : Type} (f : Literal G B → Option α) : List (Literal G B) → Option (List α)
  | [] => some []
  | v :: l => do
    let a ← f v
    let as ← extractItems f l
    pure (a :: as)

mutual
/-- `TryExtractFrom<Literal>`, `mir/constant.rs:611-850`. -/
def extract : (t : RTy) → Literal G B → Option (Val G B t)
  | .unit => fun v => match v with
    | .unit => some ()
    | _ => none
  | .bool => fun v => match v with
    | .bool x => some x
    | _ => none
  | .i8 => fun v => match v with
    | .byte x => some x
    | _ => none
  | .i16 => fun v => match v with
    | .short x => some x
    | _ => none
  | .i32 => fun v => match v with
    | .int x => some x
    | _ => none
  | .i64 => fun v => match v with
    | .long x => some x
    | _ => none
  | .bigInt => fun v => match v with
    | .bigInt x => some x
    | _ => none
  | .point => fun v => match v with
    | .groupElement x => some x
    | _ => none
  | .sigmaProp => fun v => match v with
    | .sigmaProp x => some x
    | _ => none
  | .avlTree => fun v => match v with
    | .avlTree x => some x
    | _ => none
  | .box => fun v => match v with
    | .box x => some x
    | _ => none
  | .bytes => fun v => match v with
    | .collByte x => some x
    | _ => none
  | .digest => fun v => match v with
    | .collByte l => if h : l.length = 32 then some ⟨l, h⟩ else none
    | _ => none
  | .vec t => fun v => match v with
    | .coll _ items => extractItems (extract t) items
    | _ => none
  | .opt t => fun v => match v with
    | .none => some none
    | .some v => (extract t v).map some
    | _ => none
  | .tup ts => fun v => match v with
    | .tup items => extracts ts items
    | _ => none
/-- The items of a tuple, taken one after the other, `mir/constant.rs:834-842`. -/
def extracts : (ts : List RTy) → List (Literal G B) → Option (Vals G B ts)
  | [], _ => some ()
  | _ :: _, [] => none
  | t :: ts, v :: l => do
    let a ← extract t v
    let as ← extracts ts l
    pure (a, as)
end

/-- `T::try_extract_from(constant)`, `mir/constant.rs:605-609`: only the value is looked at. -/
def extractConst (t : RTy) (c : Constant G B) : Option (Val G B t) := extract t c.v

/-- `TryFrom<Literal> for ProveDlog`, `mir/constant.rs:852-871`. -/
def dlogOf : Literal G B → Option G
  | .sigmaProp (.dlog h) => some h
  | _ => none

end
end RTy
end Verif
