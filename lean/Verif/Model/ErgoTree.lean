import Verif.Model.Expr

/-!
# ErgoTree

Source: `ergotree-ir/src/ergo_tree.rs`, `ergotree-ir/src/ergo_tree/tree_header.rs`.

The error kept in `ErgoTree::Unparsed` (`ergo_tree.rs:113-118`) is not modelled.  `M` are the method tables
(`Expr.Reader.methods`).
-/

namespace Verif
open Expr
variable {G B T : Type}

/-- `ErgoTreeHeader`, `ergo_tree/tree_header.rs:26-31`. -/
structure TreeHeader where
  version : Byte
  seg : Bool
  hasSize : Bool
  deriving DecidableEq, Repr

namespace TreeHeader

/-- `ErgoTreeHeader::new` with `ErgoTreeVersion::parse_version`, `ergo_tree/tree_header.rs:53-62, 134-141`. -/
def new (b : Byte) : Option TreeHeader :=
  if b &&& 7 ≤ 1 then some { version := b &&& 7, hasSize := (b &&& 8) != 0, seg := (b &&& 16) != 0 } else none

/-- `ErgoTreeHeader::serialized`, `ergo_tree/tree_header.rs:65-74`. -/
def serialized (h : TreeHeader) : Byte :=
  let b := h.version
  let b := if h.seg then b ||| 16 else b
  if h.hasSize then b ||| 8 else b

/-- `ErgoTreeHeader::v0`, `ergo_tree/tree_header.rs:77-83`. -/
def v0 (seg : Bool) : TreeHeader := { version := 0, seg := seg, hasSize := false }

/-- `ErgoTreeHeader::v1`, `ergo_tree/tree_header.rs:86-92`. -/
def v1 (seg : Bool) : TreeHeader := { version := 1, seg := seg, hasSize := true }

end TreeHeader

/-- `ErgoTree`, `ergo_tree.rs:30-34, 110-121`. -/
inductive ETree (G B : Type) where
  | unparsed (bytes : Bytes)
  | parsed (header : TreeHeader) (constants : List (Constant G B)) (root : Expr G B)

namespace ETree

/-- `ErgoTree::MAX_CONSTANTS_COUNT`, `ergo_tree.rs:204`. -/
def maxConstants : Nat := 4096

/-- `ErgoTree::sigma_parse_constants`, `ergo_tree.rs:156-173`. -/
def parseConstants (E : Sers G B T) : Parser (List (Constant G B)) := do
  let n ← getU32
  if maxConstants < n.toNat then Parser.fail
  else replicateP n.toNat (Constant.parse E.utf8 E.pc E.bc)

/-- `ErgoTree::sigma_parse_sized`, `ergo_tree.rs:138-154`, which is also the code for trees without a size, `:368-380`: it runs
in a reader whose table of variable types is `st`. -/
def parseBody (E : Sers G B T) (M : Byte → Byte → Option FuncSig) (h : TreeHeader) (st : TStore) :
    Parser (ETree G B × TStore) := do
  let C ← (if h.seg then parseConstants E else pure [])
  let e ← Expr.parse E { consts := C, subst := false, methods := M } st
  pure (parsed h C e.1, e.2)

/-- `ErgoTree::sigma_parse`, `ergo_tree.rs:346-382`, in a reader whose table of variable types is `st`. -/
def parseIn (E : Sers G B T) (M : Byte → Byte → Option FuncSig) (st : TStore) : Parser (ETree G B × TStore) := do
  let b ← getU8
  let h ← Parser.ofOption (TreeHeader.new b)
  if h.hasSize then do
    let n ← getU32
    let buf ← readExact n.toNat
    match parseBody E M h [] buf with
    | some x => pure (x.1.1, st)
    | none => pure (unparsed (h.serialized :: (putU32 n ++ buf)), st)
  else parseBody E M h st

/-- `ErgoTree::sigma_parse` in a new reader, `ergotree-ir/src/ergo_tree.rs:346-382`. -/
def parse (E : Sers G B T) (M : Byte → Byte → Option FuncSig) : Parser (ETree G B) := do
  let x ← parseIn E M []
  pure x.1

/-- `ErgoTree::sigma_parse_bytes`, `ergo_tree.rs:384-427`. -/
def parseBytes (E : Sers G B T) (M : Byte → Byte → Option FuncSig) (bytes : Bytes) : Option (ETree G B) :=
  match (getU8 >>= fun b => Parser.ofOption (TreeHeader.new b)) bytes with
  | none => some (unparsed bytes)
  | some (h, r) =>
    if h.hasSize then
      match (getU32 >>= fun n => readExact n.toNat) r with
      | none => none
      | some (buf, rest) =>
        if rest = [] then
          match parseBody E M h [] buf with
          | some x => some x.1.1
          | none => some (unparsed bytes)
        else some (unparsed bytes)
    else
      match parseBody E M h [] r with
      | some x => if x.2 = [] then some x.1.1 else some (unparsed bytes)
      | none => some (unparsed bytes)

/-- The bytes after the header, `ergo_tree.rs:322-334`. -/
def serBody [DecidableEq G] (E : Sers G B T) (h : TreeHeader) (C : List (Constant G B)) (root : Expr G B) :
    Outcome Bytes := do
  let cs ← (if h.seg then do
      let n ← putCount32 C.length
      let b ← serMany (fun c => c.ser E.pc E.bc) C
      pure (n ++ b)
    else pure [])
  let e ← Expr.ser E root none
  pure (cs ++ e.1)

/-- `ErgoTree::sigma_serialize`, `ergo_tree.rs:314-344`. -/
def ser [DecidableEq G] (E : Sers G B T) : ETree G B → Outcome Bytes
  | unparsed b => .ok b
  | parsed h C root => do
    let body ← serBody E h C root
    let n ← (if h.hasSize then putCount32 body.length else pure [])
    pure (h.serialized :: (n ++ body))

/-- `ErgoTree::new`, `ergo_tree.rs:176-201`. -/
def new [DecidableEq G] (E : Sers G B T) (M : Byte → Byte → Option FuncSig) (h : TreeHeader) (e : Expr G B) :
    Outcome (ETree G B) :=
  if h.seg then do
    let x ← Expr.ser E e (some [])
    let C := x.2.getD []
    match Expr.parse E { consts := C, subst := false, methods := M } [] x.1 with
    | some y => .ok (parsed h C y.1.1)
    | none => .err
  else .ok (parsed h [] e)

/-- `ErgoTree::proposition`, `ergo_tree.rs:207-228`. -/
def proposition [DecidableEq G] (E : Sers G B T) (M : Byte → Byte → Option FuncSig) : ETree G B → Outcome (Expr G B)
  | unparsed _ => .err
  | parsed h C root =>
    if h.seg then do
      let x ← Expr.ser E root (some [])
      match Expr.parse E { consts := C, subst := true, methods := M } [] x.1 with
      | some y => .ok y.1.1
      | none => .err
    else .ok root

/-- `ErgoTree::get_constants`, `ergo_tree.rs:264-266`. -/
def getConstants : ETree G B → Option (List (Constant G B))
  | unparsed _ => none
  | parsed _ C _ => some C

/-- `ErgoTree::constants_len`, `ergo_tree.rs:250-252`. -/
def constantsLen (t : ETree G B) : Option Nat := t.getConstants.map List.length

/-- `ErgoTree::get_constant`, `ergo_tree.rs:257-260`; the outer `none` is the `Err` of an unparsed tree. -/
def getConstant (t : ETree G B) (i : Nat) : Option (Option (Constant G B)) := t.getConstants.map fun C => C[i]?

/-- `ErgoTree::with_constant` with `ParsedErgoTree::with_constant`, `ergo_tree.rs:39-61, 271-278`. -/
def withConstant (i : Nat) (c : Constant G B) : ETree G B → Option (ETree G B)
  | unparsed _ => none
  | parsed h C root =>
    match C[i]? with
    | some old => if c.tpe.beq old.tpe then some (parsed h (C.set i c) root) else none
    | none => none

/-- `ErgoTree::template_bytes`, `ergo_tree.rs:63-65, 282-284`. -/
def templateBytes [DecidableEq G] (E : Sers G B T) : ETree G B → Outcome Bytes
  | unparsed _ => .err
  | parsed _ _ root => do
    let x ← Expr.ser E root none
    pure x.1

/-- `TryFrom<Expr> for ErgoTree`, `ergo_tree.rs:298-312`. -/
def ofExpr [DecidableEq G] (E : Sers G B T) (M : Byte → Byte → Option FuncSig) (e : Expr G B) : Outcome (ETree G B) :=
  match e with
  | .const c =>
    match c.tpe with
    | .sigmaProp => new E M (TreeHeader.v0 false) e
    | _ => new E M (TreeHeader.v0 true) e
  | _ => new E M (TreeHeader.v0 true) e

/-- `ErgoTree` as the codec of the scripts of boxes, in a new reader (`ergo_box.rs:330-395` calls `ErgoTree::sigma_parse`). -/
def codec [DecidableEq G] (E : Sers G B T) (M : Byte → Byte → Option FuncSig) : BoxCodec (ETree G B) where
  ser := ser E
  parse := parse E M

end ETree
end Verif
