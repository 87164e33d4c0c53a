import Verif.Model.ScriptParser
import Verif.Model.Eval

/-!
# ErgoScript: from the syntax tree to an expression

Source: `ergoscript-compiler/src/ast.rs`, `hir.rs`, `hir/rewrite.rs`, `binder.rs`, `type_infer.rs`, `mir/lower.rs`, `compiler.rs`,
`script_env.rs`, `error.rs`, and `ergotree-ir/src/type_check.rs`.

Error messages are left out; an error is its constructor and its span.  The span of the operator in a `hir::Binary` and the
spans of `ergotree_ir` expressions (always 0) are left out.
-/

namespace Verif
namespace Script

/-- A `TextRange`: start and end in bytes, used at `ergoscript-compiler/src/ast.rs:39`. -/
abbrev Span := Nat × Nat

/-- `CompileError`, `compiler.rs:22-39`. -/
inductive CompileErr where
  | parse (l : List ParseErr)
  | hir (span : Span)
  | binder (span : Span)
  | typeInfer (span : Span)
  | mir (span : Span)
  | typeCheck
  | tree
  deriving DecidableEq, Repr

/-- Result of a compiler pass, `ergoscript-compiler/src/compiler.rs:22-39`. -/
inductive Comp (α : Type) where
  | ok (a : α)
  | err (e : CompileErr)
  | panic
  deriving DecidableEq, Repr

namespace Comp
/-- The `?` operator: errors and panics propagate, `ergoscript-compiler/src/compiler.rs:41-80`. -/
def bind {α β : Type} : Comp α → (α → Comp β) → Comp β
  | ok a, f => f a
  | err e, _ => err e
  | panic, _ => panic

/-- `?` for `Comp`, as in `ergoscript-compiler/src/compiler.rs:41-80`. -/
instance : Monad Comp where
  pure := ok
  bind := bind
end Comp

/-! ## Syntax tree (`ast.rs`) -/

mutual
/-- The length of a node or token in bytes (`text_range().len()` of the crate `rowan`), used at `ergoscript-compiler/src/ast.rs:39`. -/
def Green.len : Green → Nat
  | .node _ cs => Green.lens cs
  | .token _ t => textLen t
/-- The length of a row of nodes and tokens, for `ergoscript-compiler/src/ast.rs:39`. -/
def Green.lens : List Green → Nat
  | [] => 0
  | g :: gs => Green.len g + Green.lens gs
end

mutual
/-- The number of nodes and tokens: more than the depth, so a budget for recursion, not in the code; for
`ergoscript-compiler/src/ast.rs:71-83`. -/
def Green.size : Green → Nat
  | .node _ cs => Green.sizes cs + 1
  | .token _ _ => 1
/-- The number of nodes and tokens of a row, not in the code; for `ergoscript-compiler/src/ast.rs:71-83`. -/
def Green.sizes : List Green → Nat
  | [] => 0
  | g :: gs => Green.size g + Green.sizes gs
end

/-- `Expr::cast`, `ast.rs:71-83`: parenthesised and prefixed expressions and definitions are not accepted. -/
def castable : Green → Bool
  | .node (.tok .ident) _ | .node .infixExpr _ | .node (.tok .intNumber) _ | .node (.tok .longNumber) _ => true
  | _ => false

/-- `children().filter_map(Expr::cast)`, `ast.rs:35, 107-109`, with the position of each. -/
def castables : Nat → List Green → List (Nat × Green)
  | _, [] => []
  | off, g :: gs => if castable g then (off, g) :: castables (off + g.len) gs else castables (off + g.len) gs

/-- `children_with_tokens().filter_map(SyntaxElement::into_token)`, `ast.rs:49-50, 121-122`. -/
def tokensOf : List Green → List (TokKind × List Char)
  | [] => []
  | .token k t :: gs => (k, t) :: tokensOf gs
  | .node _ _ :: gs => tokensOf gs

/-- `Ident::name`, `ast.rs:47-53`. -/
def identName (cs : List Green) : Option (List Char) :=
  ((tokensOf cs).find? fun t => t.1 == .ident).map Prod.snd

/-- The tokens that `BinaryExpr::op` looks for, `ast.rs:124-131`. -/
def isOpTok : TokKind → Bool
  | .plus | .minus | .star | .slash | .and => true
  | _ => false

/-- `BinaryExpr::op`, `ast.rs:119-139`. -/
def binaryOp (cs : List Green) : Option TokKind := ((tokensOf cs).find? fun t => isOpTok t.1).map Prod.fst

/-- `SyntaxNode::first_token` of the crate `rowan` on the children of a node: the first child, if it is a token, else the first
token of that child, `ergoscript-compiler/src/ast.rs:157`. -/
def firstToken : Nat → List Green → Option (List Char)
  | _, [] => none
  | _, .token _ t :: _ => some t
  | 0, .node _ _ :: _ => none
  | n + 1, .node _ cs :: _ => firstToken n cs

/-- `str::parse` of a text of digits: its value, used at `ergoscript-compiler/src/ast.rs:161, 165`. -/
def digits : List Char → Nat → Nat
  | [], acc => acc
  | c :: s, acc => digits s (10 * acc + (c.toNat - '0'.toNat))

/-- `LiteralValue`, `ast.rs:146-150`. -/
inductive Lit where
  | int (v : BitVec 32)
  | long (v : BitVec 64)
  deriving DecidableEq, Repr

/-- `Literal::parse` on the text of the first token, `ast.rs:156-176`: numbers that do not fit are refused. -/
def parseLit (t : List Char) : Option Lit :=
  match t.getLast? with
  | some 'L' => if digits t.dropLast 0 < 2 ^ 63 then some (.long (BitVec.ofNat 64 (digits t.dropLast 0))) else none
  | _ => if digits t 0 < 2 ^ 31 then some (.int (BitVec.ofNat 32 (digits t 0))) else none

/-! ## High-level representation (`hir.rs`) -/

/-- `hir::Expr`, `hir.rs:32-37, 109-114, 146-185`. -/
inductive HExpr where
  | ident (name : List Char) (span : Span) (tpe : Option SType)
  | bin (op : BOp) (lhs rhs : HExpr) (span : Span) (tpe : Option SType)
  | height (span : Span) (tpe : Option SType)
  | lit (v : Lit) (span : Span) (tpe : Option SType)

/-- The field `span`, `hir.rs:35`. -/
def HExpr.span : HExpr → Span
  | ident _ s _ | bin _ _ _ s _ | height s _ | lit _ s _ => s

/-- The field `tpe`, `hir.rs:36`. -/
def HExpr.tpe : HExpr → Option SType
  | ident _ _ t | bin _ _ _ _ t | height _ t | lit _ _ t => t

/-- The type of a literal, `hir.rs:80-89`. -/
def Lit.tpe : Lit → SType
  | .int _ => .int
  | .long _ => .long

/-- The operators that are known, `hir.rs:119-130`. -/
def bopOf : TokKind → Option BOp
  | .plus => some .plus
  | .minus => some .minus
  | .star => some .multiply
  | .slash => some .divide
  | _ => none

/-- `hir::Expr::lower` and `Binary::lower`, `hir.rs:61-94, 116-144`, of a node at position `off`, with a budget for the recursion.
The span of the error for an unknown operator is that of the whole node. -/
def lowerExpr : Nat → Nat → Green → Comp HExpr
  | 0, _, _ => .panic
  | _, _, .token _ _ => .panic
  | n + 1, off, .node k cs =>
    let span := (off, off + Green.lens cs)
    match k with
    | .infixExpr =>
      match (binaryOp cs).bind bopOf with
      | none => .err (.hir span)
      | some op =>
        match castables off cs with
        | l :: r :: _ => do
          let a ← lowerExpr n l.1 l.2
          let b ← lowerExpr n r.1 r.2
          pure (.bin op a b span none)
        | _ => .err (.hir span)
    | .tok .ident =>
      match identName cs with
      | some s => .ok (.ident s span none)
      | none => .err (.hir span)
    | _ =>
      match firstToken n cs with
      | some t =>
        match parseLit t with
        | some v => .ok (.lit v span (some v.tpe))
        | none => .err (.hir span)
      | none => .panic

/-- `hir::lower`, `hir.rs:18-30`, with `Root::cast`, `ast.rs:26-32`, `compiler.rs:84`. -/
def hirLower : Green → Comp HExpr
  | .node .root cs =>
    match castables 0 cs with
    | [(off, g)] => lowerExpr g.size off g
    | _ => .err (.hir (0, Green.lens cs))
  | _ => .panic

/-- `hir::rewrite`, `hir/rewrite.rs:10-29`: the function is called for the root, and then for its operands, but for no deeper
expression. -/
def rewrite {m : Type → Type} [Monad m] (f : HExpr → m (Option HExpr)) (e : HExpr) : m HExpr := do
  let x ← f e
  match x.getD e with
  | .bin op l r s t => do
    let l' ← f l
    let r' ← f r
    pure (.bin op (l'.getD l) (r'.getD r) s t)
  | e => do
    let y ← f e
    pure (y.getD e)

/-- `ScriptEnv`, `script_env.rs:8-26`: constants by name.  The only way to make one is `ScriptEnv::new`, the empty one. -/
abbrev ScriptEnv (G B : Type) := List (List Char × Constant G B)

/-- `ScriptEnv::new`, `script_env.rs:18-20`. -/
def ScriptEnv.new {G B : Type} : ScriptEnv G B := []

/-- `ScriptEnv::get`, `script_env.rs:23-25`. -/
def ScriptEnv.get {G B : Type} (env : ScriptEnv G B) (s : List Char) : Option (Constant G B) := (env.find? fun x => x.1 == s).map Prod.snd

/-- The name `HEIGHT`, `binder.rs:46`. -/
def heightName : List Char := ['H', 'E', 'I', 'G', 'H', 'T']

/-- The function of the binder, `binder.rs:41-60`. -/
def bindName {G B : Type} (env : ScriptEnv G B) : HExpr → Comp (Option HExpr)
  | .ident s sp _ =>
    match env.get s with
    | some _ => .panic
    | none => if s = heightName then .ok (some (.height sp (some .int))) else .ok none
  | _ => .ok none

/-- `Binder::bind`, `binder.rs:35-61`. -/
def bindExpr {G B : Type} (env : ScriptEnv G B) (e : HExpr) : Comp HExpr := rewrite (bindName env) e

/-- A pass that counts the calls of `assign_type`, `ergoscript-compiler/src/type_infer.rs:25-49`. -/
abbrev Counted (α : Type) := StateT Nat Comp α

/-- The function of `assign_type`, `type_infer.rs:26-48`; `rec` is `assign_type`. -/
def inferWith (rec : HExpr → Counted HExpr) : HExpr → Counted (Option HExpr)
  | .bin .plus l r s _ => do
    let l ← rec l
    let r ← rec r
    pure (some (.bin .plus l r s l.tpe))
  | .bin _ _ _ _ _ => fun _ => .panic
  | _ => pure none

/-- `assign_type`, `type_infer.rs:25-49`, with a budget for the recursion.  Each call adds one to the counter. -/
def assignType : Nat → HExpr → Counted HExpr
  | 0, _ => fun _ => .panic
  | n + 1, e => fun c => rewrite (inferWith (assignType n)) e (c + 1)

/-- The depth of an expression: enough as a budget, not in the code; for `ergoscript-compiler/src/type_infer.rs:25-49`. -/
def HExpr.depth : HExpr → Nat
  | bin _ l r _ _ => max l.depth r.depth + 1
  | _ => 1

/-! ## Expressions of `ergotree-ir` (`mir/lower.rs`, `compiler.rs`) -/

variable {G B T : Type}

/-- `From<hir::BinaryOp> for BinOpKind`, `mir/lower.rs:78-87`. -/
def BOp.kind : BOp → BinK
  | .plus => .plus
  | .minus => .minus
  | .multiply => .multiply
  | .divide => .divide

/-- The check at the end of `mir::lower::lower`, `mir/lower.rs:58-75`. -/
def checkTpe (e : HExpr) (m : Expr G B) : Comp (Expr G B) :=
  match e.tpe with
  | none => .err (.mir e.span)
  | some t => if m.tpe.beq t then .ok m else .err (.mir e.span)

/-- `mir::lower::lower`, `mir/lower.rs:29-76`. -/
def mirLower : HExpr → Comp (Expr G B)
  | .ident s sp t => .err (.mir sp)
  | .height sp t => checkTpe (.height sp t) (.op .height [])
  | .lit (.int v) sp t => checkTpe (.lit (.int v) sp t) (.const ⟨.int, .int v⟩)
  | .lit (.long v) sp t => checkTpe (.lit (.long v) sp t) (.const ⟨.long, .long v⟩)
  | .bin op l r sp t => do
    let a ← mirLower l
    let b ← mirLower r
    checkTpe (.bin op l r sp t) (.bin op.kind a b)

/-- `type_check`, `ergotree-ir/src/type_check.rs:25-43`: only the operands of the outermost operation. -/
def typeCheck : Expr G B → Comp (Expr G B)
  | .bin k l r => if l.tpe.beq r.tpe then .ok (.bin k l r) else .err .typeCheck
  | e => .ok e

/-- `compile_hir`, `compiler.rs:78-87`. -/
def compileHir (src : List Char) : Comp HExpr :=
  match parse src with
  | .ok (g, []) => hirLower g
  | .ok (_, errs) => .err (.parse errs)
  | _ => .panic

/-- The passes after `compile_hir`, `compiler.rs:64-69`. -/
def compileFrom (env : ScriptEnv G B) (h : HExpr) : Comp (Expr G B) := do
  let b ← bindExpr env h
  let (t, _) ← assignType b.depth b 0
  let m ← mirLower t
  typeCheck m

/-- `compile_expr`, `compiler.rs:59-70`. -/
def compileExpr (src : List Char) (env : ScriptEnv G B) : Comp (Expr G B) := do
  let h ← compileHir src
  compileFrom env h

/-- `compile`, `compiler.rs:73-76`. -/
def compile [DecidableEq G] (E : Sers G B T) (M : Byte → Byte → Option FuncSig) (src : List Char) (env : ScriptEnv G B) :
    Comp (ETree G B) := do
  let e ← compileExpr src env
  match ETree.ofExpr E M e with
  | .ok t => .ok t
  | .err => .err .tree
  | .panic => .panic

/-! ## The description of an error (`error.rs`) -/

/-- The line of a position: one more than the line feeds before it (`LineColLookup::get` of the crate `line-col`, which panics for
a position after the end of the text), used at `ergoscript-compiler/src/error.rs:4-23`. -/
def lineOf (src : List Char) (i : Nat) : Outcome Nat :=
  if i ≤ textLen src then .ok (countBefore src i + 1) else .panic
where
  /-- The line feeds that begin before byte `i`. -/
  countBefore : List Char → Nat → Nat
    | [], _ => 0
    | c :: s, i => if i = 0 then 0 else (if c = '\n' then 1 else 0) + countBefore s (i - c.utf8Size)

/-- `usize - 1`: overflow checks panic; without them the result wraps, `error.rs:6-7`. -/
def lessOne (checked : Bool) (n : Nat) : Outcome Nat :=
  if n = 0 then (if checked then .panic else .ok (2 ^ 64 - 1)) else .ok (n - 1)

/-- The number of lines (`str::lines`): a line feed ends a line, and no empty line follows the last one, used at
`ergoscript-compiler/src/error.rs:4-23`. -/
def lineCount : List Char → Nat
  | [] => 0
  | [_] => 1
  | c :: d :: s => (if c = '\n' then 1 else 0) + lineCount (d :: s)

/-- `pretty_error_desc`, `error.rs:4-23`: which line of the source is shown, `none` for "Multiline error spans are not yet
supported".  The rest of the text is left out.  `checked`: the crate is built with overflow checks. -/
def prettyDesc (checked : Bool) (src : List Char) (span : Span) : Outcome (Option Nat) := do
  let a ← lessOne checked span.1
  let b ← lessOne checked span.2
  let l ← lineOf src a
  let l' ← lineOf src b
  if l' ≠ l then pure none
  else if l ≤ lineCount src then pure (some l) else .panic

/-- `CompileError::pretty_desc`, `compiler.rs:43-55`. -/
def CompileErr.pretty (checked : Bool) (src : List Char) : CompileErr → Outcome Unit
  | .parse l => descs l
  | .hir s | .binder s | .typeInfer s | .mir s => do
    let _ ← prettyDesc checked src s
    pure ()
  | .typeCheck | .tree => .ok ()
where
  /-- `errors.iter().map(|e| e.pretty_desc(source)).collect()`, `compiler.rs:45-47`. -/
  descs : List ParseErr → Outcome Unit
    | [] => .ok ()
    | e :: l => do
      let _ ← prettyDesc checked src e.span
      descs l

end Script
end Verif
