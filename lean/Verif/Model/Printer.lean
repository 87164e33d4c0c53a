import Verif.Model.Expr
import Verif.Model.Value

/-!
# What the pretty printer does to an expression

Source: `ergotree-ir/src/pretty_printer.rs`, `ergotree-ir/src/pretty_printer/print.rs`.

`Expr::print` writes a text and returns the expression it rebuilt.  The text, the current position and the source spans are not
modelled; the indentation is, because its arithmetic can fail.  Writing to the `String` does not fail, so the `PrintError` of the code
never occurs.  Source spans are part of Rust's `==` on expressions, and so on function values; the model has no spans.
-/

namespace Verif

/-- `PosTrackingWriter::INDENT`, `pretty_printer.rs:59`. -/
def indentStep : BitVec 64 := 2

/-- `inc_ident`, `pretty_printer.rs:45-47`: `+=` on a `usize`. -/
def incIndent (m : Mode) (i : BitVec 64) : Outcome (BitVec 64) :=
  if i.toNat + 2 < 2 ^ 64 then .ok (i + indentStep)
  else match m with
    | .debug => .panic
    | .release => .ok (i + indentStep)

/-- `dec_ident`, `pretty_printer.rs:49-51`: `-=` on a `usize`. -/
def decIndent (m : Mode) (i : BitVec 64) : Outcome (BitVec 64) :=
  if 2 ≤ i.toNat then .ok (i - indentStep)
  else match m with
    | .debug => .panic
    | .release => .ok (i - indentStep)

/-- `print_indent`, `pretty_printer.rs:20-22`: writes as many spaces as the indentation says.  A `String` cannot hold more than
`isize::MAX` bytes.  Simplification: memory is not exhausted before that. -/
def printIndent (i : BitVec 64) : Outcome Unit := if i.toNat < 2 ^ 63 then .ok () else .panic

namespace Expr
variable {G B : Type}

/-- `Fold::new`, `mir/coll_fold.rs:28-51`. -/
def foldOk : List SType → Bool
  | [input, zero, f] =>
    match input.postEval, f with
    | .coll t, .func d _ _ => SType.beqList d [.tuple [zero, t]]
    | _, _ => false
  | _ => true

/-- The `unwrap` of the constructors called by the printer, on the types of the operands: `print.rs:313, 330, 351, 397, 536, 914,
964`.  The other nodes with a fixed number of operands are rebuilt without a test. -/
def rebuildOk (o : SOp) (ts : List SType) : Bool :=
  match o with
  | .fold => foldOk ts
  | .map | .filter | .anyOf | .forAll | .optionGet | .optionGetOrElse => o.check ts
  | _ => true

/-- `Upcast::new`, `mir/upcast.rs:26-46`. -/
def upcastOk (input target : SType) : Bool := target.isNumeric && input.postEval.isNumeric

/-- `i.try_extract_into::<Constant>()?.try_extract_into::<bool>()`, `mir/collection.rs:40-44`. -/
def constBool? : Expr G B → Option Bool
  | .const c => c.v.boolOf
  | _ => none

/-- `collect::<Result<Vec<bool>, _>>()`, `mir/collection.rs:40-44`. -/
def constBools? : List (Expr G B) → Option (List Bool)
  | [] => some []
  | e :: l => do
    let b ← constBool? e
    let bs ← constBools? l
    some (b :: bs)

/-- `Collection::new`, `mir/collection.rs:32-52`. -/
def newColl (t : SType) (items : List (Expr G B)) : Outcome (Expr G B) :=
  if (tpes items).all (fun x => x.beq t) then
    if t.beq .bool then
      match constBools? items with
      | some l => .ok (.bools l)
      | none => .ok (.coll t items)
    else .ok (.coll t items)
  else .err

/-- `.unwrap()` on a value whose constructor succeeds when `c` holds, e.g. `ergotree-ir/src/pretty_printer/print.rs:99-1123`. -/
def orPanic {α : Type} (c : Bool) (a : α) : Outcome α := if c then .ok a else .panic

/-- The end of `Fold` and `Filter`, `print.rs:346-347, 392-393`. -/
def closeIndent (m : Mode) (o : SOp) (i : BitVec 64) : Outcome (BitVec 64) :=
  match o with
  | .fold | .filter => do
    let _ ← printIndent i
    decIndent m i
  | _ => .ok i

mutual
/-- `Expr::print`, `print.rs:99-1123`, from an indentation to the rebuilt expression and the indentation afterwards.
Indentation is used by `BlockValue` (`:178-206`), `FuncValue` (`:357-382`: three times in, twice out), `Fold` (`:336-355`) and
`Filter` (`:384-401`: once out), `SigmaAnd` and `SigmaOr` (`:565-599`).  Not visited, but copied: the default of `ByIndex` (`:296`),
flags and value length of `CreateAvlTree` (`:1108-1123`), `DeserializeRegister` (`:1029-1034`). -/
def print (m : Mode) : Expr G B → BitVec 64 → Outcome (Expr G B × BitVec 64)
  | .op o args, i => do
    let a ← printAll m args i
    let j ← closeIndent m o a.2
    let e ← orPanic (rebuildOk o (tpes a.1)) (.op o a.1)
    pure (e, j)
  | .bin k l r, i => do
    let a ← print m l i
    let b ← print m r a.2
    pure (.bin k a.1 b.1, b.2)
  | .cast up e t, i => do
    let a ← print m e i
    let e' ← orPanic (!up || upcastOk a.1.tpe t) (.cast up a.1 t)
    pure (e', a.2)
  | .extractReg e r t, i => do
    let a ← print m e i
    let e' ← orPanic (SOp.evalsTo a.1.tpe .box) (.extractReg a.1 r t)
    pure (e', a.2)
  | .selectField e x, i => do
    let a ← print m e i
    let e' ← orPanic (selectOk a.1.tpe x) (.selectField a.1 x)
    pure (e', a.2)
  | .byIndex e x d, i => do
    let a ← print m e i
    let b ← print m x a.2
    let e' ← orPanic (byIndexOk a.1.tpe b.1.tpe (tpes d)) (.byIndex a.1 b.1 d)
    pure (e', b.2)
  | .createAvl f g k v, i => do
    let a ← print m g i
    let b ← print m k a.2
    pure (.createAvl f a.1 b.1 v, b.2)
  | .coll t items, i => do
    let a ← printAll m items i
    match newColl t a.1 with
    | .ok e => pure (e, a.2)
    | _ => .panic
  | .tuple items, i => do
    let a ← printAll m items i
    pure (.tuple a.1, a.2)
  | .sigma isAnd items, i => do
    let a ← printItems m items i
    let _ ← printIndent a.2
    pure (.sigma isAnd a.1, a.2)
  | .func args body, i => do
    let i1 ← incIndent m i
    let i2 ← incIndent m i1
    let _ ← printIndent i2
    let i3 ← incIndent m i2
    let _ ← printIndent i3
    let a ← print m body i3
    let j ← decIndent m a.2
    let _ ← printIndent j
    let j' ← decIndent m j
    pure (.func args a.1, j')
  | .apply f args, i => do
    let a ← print m f i
    let b ← printAll m args a.2
    let e ← orPanic (applyOk a.1.tpe (tpes b.1)) (.apply a.1 b.1)
    pure (e, b.2)
  | .block items r, i => do
    let i1 ← incIndent m i
    let a ← printLines m items i1
    let _ ← printIndent a.2
    let b ← print m r a.2
    let j ← decIndent m b.2
    let _ ← printIndent j
    pure (.block a.1 b.1, j)
  | .valDef id rhs, i => do
    let a ← print m rhs i
    pure (.valDef id a.1, a.2)
  | .method ti mi sig obj args, i => do
    let a ← print m obj i
    let b ← printAll m args a.2
    pure (.method ti mi sig a.1 b.1, b.2)
  | .property ti mi sig obj, i => do
    let a ← print m obj i
    pure (.property ti mi sig a.1, a.2)
  | .const c, i => .ok (.const c, i)
  | .placeholder id t, i => .ok (.placeholder id t, i)
  | .valUse id t, i => .ok (.valUse id t, i)
  | .bools l, i => .ok (.bools l, i)
  | .getVar id t, i => .ok (.getVar id t, i)
  | .deserCtx t id, i => .ok (.deserCtx t id, i)
  | .deserReg r t d, i => .ok (.deserReg r t d, i)
/-- Operands one after the other, e.g. `ergotree-ir/src/pretty_printer/print.rs:99-1123`. -/
def printAll (m : Mode) : List (Expr G B) → BitVec 64 → Outcome (List (Expr G B) × BitVec 64)
  | [], i => .ok ([], i)
  | e :: l, i => do
    let a ← print m e i
    let b ← printAll m l a.2
    pure (a.1 :: b.1, b.2)
/-- The items of a block, `print.rs:184-188`. -/
def printLines (m : Mode) : List (Expr G B) → BitVec 64 → Outcome (List (Expr G B) × BitVec 64)
  | [], i => .ok ([], i)
  | e :: l, i => do
    let _ ← printIndent i
    let a ← print m e i
    let b ← printLines m l a.2
    pure (a.1 :: b.1, b.2)
/-- The items of `SigmaAnd` and `SigmaOr`, `print.rs:568-576, 586-594`. -/
def printItems (m : Mode) : List (Expr G B) → BitVec 64 → Outcome (List (Expr G B) × BitVec 64)
  | [], i => .ok ([], i)
  | e :: l, i => do
    let i1 ← incIndent m i
    let _ ← printIndent i1
    let a ← print m e i1
    let j ← decIndent m a.2
    let b ← printItems m l j
    pure (a.1 :: b.1, b.2)
end

/-- `Expr::pretty_print`, `print.rs:83-91`, without the text. -/
def prettyPrint (m : Mode) (e : Expr G B) : Outcome (Expr G B) := do
  let a ← print m e 0
  pure a.1

end Expr
end Verif
