import Verif.Model.Methods
import Verif.Spec.Scope
import Verif.Spec.Constant
import Verif.Spec.SType
import Verif.Spec.Arith

/-!
# A type system for scripts

Stated without reference to the interpreter: which scripts are typed, and which values belong to which type.
-/

namespace Verif.Spec
variable {G B T : Type}

/-- The values of a type.  Byte collections have their own representation; 256 bit integers have their range.  `okBox` says which boxes
are meant, `L` which functions. -/
inductive HasTy (okBox : B → Prop) (L : List (BitVec 32 × SType) → Expr G B → Prop) : Value G B → SType → Prop where
  | unit : HasTy okBox L .unit .unit
  | bool (b : Bool) : HasTy okBox L (.bool b) .bool
  | byte (v : BitVec 8) : HasTy okBox L (.byte v) .byte
  | short (v : BitVec 16) : HasTy okBox L (.short v) .short
  | int (v : BitVec 32) : HasTy okBox L (.int v) .int
  | long (v : BitVec 64) : HasTy okBox L (.long v) .long
  | bigInt (v : Int) (h : Fits 256 v) : HasTy okBox L (.bigInt v) .bigInt
  | groupElement (g : G) : HasTy okBox L (.groupElement g) .groupElement
  | sigmaProp (p : SigmaBoolean G) : HasTy okBox L (.sigmaProp p) .sigmaProp
  | box (b : B) (h : okBox b) : HasTy okBox L (.box b) .box
  | avlTree (a : AvlTreeData) : HasTy okBox L (.avlTree a) .avlTree
  | bytes (b : Bytes) : HasTy okBox L (.collByte b) (.coll .byte)
  | coll (t : SType) (items : List (Value G B)) (ht : t ≠ .byte) (h : ∀ v ∈ items, HasTy okBox L v t) :
    HasTy okBox L (.coll t items) (.coll t)
  | tup (items : List (Value G B)) (ts : List SType) (hl : items.length = ts.length)
    (h : ∀ (i : Nat) v t, items[i]? = some v → ts[i]? = some t → HasTy okBox L v t) : HasTy okBox L (.tup items) (.tuple ts)
  | context : HasTy okBox L .context .context
  | header (h : Header G) : HasTy okBox L (.header h) .header
  | preHeader (h : PreHeader G) : HasTy okBox L (.preHeader h) .preHeader
  | global : HasTy okBox L .global .global
  | none (t : SType) : HasTy okBox L .none (.option t)
  | some (v : Value G B) (t : SType) (h : HasTy okBox L v t) : HasTy okBox L (.some v) (.option t)
  | lam (args : List (BitVec 32 × SType)) (body : Expr G B) (h : L args body) :
    HasTy okBox L (.lam args body) (.func (args.map Prod.snd) body.tpe [])

/-- Operand types of the nodes with a fixed number of operands. -/
inductive OpOk : SOp → List SType → Prop where
  | height : OpOk .height []
  | inputs : OpOk .inputs []
  | outputs : OpOk .outputs []
  | selfBox : OpOk .selfBox []
  | minerPubKey : OpOk .minerPubKey []
  | groupGenerator : OpOk .groupGenerator []
  | global : OpOk .global []
  | context : OpOk .context []
  | and : OpOk .and [.coll .bool]
  | or : OpOk .or [.coll .bool]
  | xorOf : OpOk .xorOf [.coll .bool]
  | logicalNot : OpOk .logicalNot [.bool]
  | negation (t : NumTy) : OpOk .negation [t.stype]
  | bitInversion (t : NumTy) : OpOk .bitInversion [t.stype]
  | optionGet (t : SType) : OpOk .optionGet [.option t]
  | optionIsDefined (t : SType) : OpOk .optionIsDefined [.option t]
  | optionGetOrElse (t : SType) : OpOk .optionGetOrElse [.option t, t]
  | extractAmount : OpOk .extractAmount [.box]
  | extractBytes : OpOk .extractBytes [.box]
  | extractBytesWithNoRef : OpOk .extractBytesWithNoRef [.box]
  | extractScriptBytes : OpOk .extractScriptBytes [.box]
  | extractCreationInfo : OpOk .extractCreationInfo [.box]
  | extractId : OpOk .extractId [.box]
  | sizeOf (t : SType) : OpOk .sizeOf [.coll t]
  | boolToSigmaProp : OpOk .boolToSigmaProp [.bool]
  | createProveDlog : OpOk .createProveDlog [.groupElement]
  | sigmaPropBytes : OpOk .sigmaPropBytes [.sigmaProp]
  | decodePoint : OpOk .decodePoint [.coll .byte]
  | calcBlake2b256 : OpOk .calcBlake2b256 [.coll .byte]
  | calcSha256 : OpOk .calcSha256 [.coll .byte]
  | byteArrayToLong : OpOk .byteArrayToLong [.coll .byte]
  | byteArrayToBigInt : OpOk .byteArrayToBigInt [.coll .byte]
  | longToByteArray : OpOk .longToByteArray [.long]
  | append (t : SType) : OpOk .append [.coll t, .coll t]
  | xor : OpOk .xor [.coll .byte, .coll .byte]
  | atleast : OpOk .atleast [.int, .coll .sigmaProp]
  | map (t r : SType) : OpOk .map [.coll t, .func [t] r []]
  | filter (t : SType) : OpOk .filter [.coll t, .func [t] .bool []]
  | anyOf (t : SType) : OpOk .anyOf [.coll t, .func [t] .bool []]
  | forAll (t : SType) : OpOk .forAll [.coll t, .func [t] .bool []]
  | fold (t z : SType) : OpOk .fold [.coll t, z, .func [.tuple [z, t]] z []]
  | multiplyGroup : OpOk .multiplyGroup [.groupElement, .groupElement]
  | exponentiate : OpOk .exponentiate [.groupElement, .bigInt]
  | slice (t : SType) : OpOk .slice [.coll t, .int, .int]
  | ifOp (t : SType) : OpOk .ifOp [.bool, t, t]
  | substConstants (t : SType) : OpOk .substConstants [.coll .byte, .coll .int, .coll t]
  | treeLookup : OpOk .treeLookup [.avlTree, .coll .byte, .coll .byte]
  | createProveDhTuple : OpOk .createProveDhTuple [.groupElement, .groupElement, .groupElement, .groupElement]

/-- Operand types of the binary operators: two numbers of the same type, two Booleans, anything for equality. -/
inductive BinOk : BinK → SType → SType → Prop where
  | number (k : BinK) (t : NumTy) (h : k ∈ [.plus, .minus, .multiply, .divide, .max, .min, .modulo, .ge, .gt, .le, .lt,
      .bitOr, .bitAnd, .bitXor]) : BinOk k t.stype t.stype
  | logic (k : BinK) (h : k ∈ [.and, .or, .xor]) : BinOk k .bool .bool
  | equal (k : BinK) (h : k ∈ [.eq, .neq]) (l r : SType) : BinOk k l r

/-- Methods whose result does not have the declared type, see `C67_violation_*`: `Coll.flatMap`, `Header.stateRoot`, `Box.getReg`. -/
def badMethod (t m : Byte) : Prop := (t = 12 ∧ m = 15) ∨ (t = 104 ∧ m = 5) ∨ (t = 99 ∧ m = 7)

/-- What a script may rely on, declared from outside: the boxes it can get hold of, the types of the registers of all boxes, the types of the context variables, and
which registers of the box being spent and which context variables hold code. -/
structure Decls (B : Type) where
  box : B → Prop
  reg : Byte → SType → Prop
  var : Byte → SType → Prop
  codeReg : Byte → SType → Prop
  codeVar : Byte → SType → Prop

/-- Variables in scope, the last bound first. -/
abbrev Scope := List (BitVec 32 × SType)

/-- The scope after the definitions of a block. -/
def Scope.define (Γ : Scope) (defs : List (BitVec 32 × Expr G B)) : Scope := defs.foldl (fun Γ d => (d.1, d.2.tpe) :: Γ) Γ

/-- The script is typed in a scope; its type is `Expr.tpe`.  No variable is bound twice on a path, and functions are neither passed
to nor returned by functions and blocks. -/
inductive Typed (D : Decls B) : Scope → Expr G B → Prop where
  | const (Γ) (c : Constant G B) (h : WellTyped D.box c.v c.tpe) : Typed D Γ (.const c)
  | valUse (Γ id t) (h : (id, t) ∈ Γ) : Typed D Γ (.valUse id t)
  | bools (Γ l) : Typed D Γ (.bools l)
  | op (Γ o args) (ha : ∀ e ∈ args, Typed D Γ e) (h : OpOk o (Expr.tpes args)) : Typed D Γ (.op o args)
  | bin (Γ k l r) (hl : Typed D Γ l) (hr : Typed D Γ r) (h : BinOk k l.tpe r.tpe) : Typed D Γ (.bin k l r)
  | cast (Γ up e t) (he : Typed D Γ e) : Typed D Γ (.cast up e t)
  | extractReg (Γ e r t) (he : Typed D Γ e) (hb : e.tpe = .box) (h : D.reg r t) : Typed D Γ (.extractReg e r t)
  | selectField (Γ e i ts) (he : Typed D Γ e) (ht : e.tpe = .tuple ts) (h : i.toNat - 1 < ts.length) : Typed D Γ (.selectField e i)
  | getVar (Γ id t) (h : D.var id t) : Typed D Γ (.getVar id t)
  | deserCtx (Γ t id) (h : D.codeVar id t) : Typed D Γ (.deserCtx t id)
  | deserReg (Γ r t d) (hd : ∀ e ∈ d, Typed D Γ e) (h : D.codeReg r t) : Typed D Γ (.deserReg r t d)
  | byIndex (Γ e i d t) (he : Typed D Γ e) (hi : Typed D Γ i) (hd : ∀ x ∈ d, Typed D Γ x) (h : e.tpe = .coll t) (hit : i.tpe = .int)
    (hdt : ∀ x ∈ d, x.tpe = t) : Typed D Γ (.byIndex e i d)
  | createAvl (Γ f d k v) (hf : Typed D Γ f) (hd : Typed D Γ d) (hk : Typed D Γ k) (hv : ∀ x ∈ v, Typed D Γ x) (hft : f.tpe = .byte)
    (hdt : d.tpe = .coll .byte) (hkt : k.tpe = .int) (hvt : ∀ x ∈ v, x.tpe = .int) : Typed D Γ (.createAvl f d k v)
  | coll (Γ t items) (hi : ∀ e ∈ items, Typed D Γ e) (h : ∀ e ∈ items, e.tpe = t) : Typed D Γ (.coll t items)
  | tuple (Γ items) (hi : ∀ e ∈ items, Typed D Γ e) : Typed D Γ (.tuple items)
  | sigma (Γ isAnd items) (hi : ∀ e ∈ items, Typed D Γ e) (h : ∀ e ∈ items, e.tpe = .sigmaProp) : Typed D Γ (.sigma isAnd items)
  | func (Γ args body) (hn : (args.map Prod.fst).Nodup) (hf : ∀ a ∈ args, a.1 ∉ Γ.map Prod.fst) (ha : ∀ a ∈ args, NoFunc a.2)
    (hb : NoFunc body.tpe) (h : Typed D (args ++ Γ) body) : Typed D Γ (.func args body)
  | apply (Γ f args r) (hf : Typed D Γ f) (ha : ∀ e ∈ args, Typed D Γ e) (h : f.tpe = .func (Expr.tpes args) r []) :
    Typed D Γ (.apply f args)
  | block (Γ defs r) (hd : ∀ pre d post, defs = pre ++ d :: post → Typed D (Γ.define pre) d.2)
    (hf : ∀ pre d post, defs = pre ++ d :: post → d.1 ∉ (Γ.define pre).map Prod.fst)
    (hr : Typed D (Γ.define defs) r) (hn : NoFunc r.tpe) : Typed D Γ (.block (defs.map fun d => .valDef d.1 d.2) r)
  | method (Γ t m sig o args) (ho : Typed D Γ o) (ha : ∀ e ∈ args, Typed D Γ e)
    (h : Expr.specialize methodTable t m (o.tpe :: Expr.tpes args) = some sig) (hb : ¬ badMethod t m) :
    Typed D Γ (.method t m sig o args)
  | property (Γ t m sig o) (ho : Typed D Γ o) (h : Expr.specialize methodTable t m [o.tpe] = some sig) (hb : ¬ badMethod t m) :
    Typed D Γ (.property t m sig o)

mutual
/-- The number of nodes of a script; a node that runs code from outside counts for `b` more. -/
def weight (b : Nat) : Expr G B → Nat
  | .op _ args => weights b args + 1
  | .bin _ l r => weight b l + weight b r + 1
  | .cast _ e _ => weight b e + 1
  | .extractReg e _ _ => weight b e + 1
  | .selectField e _ => weight b e + 1
  | .deserCtx _ _ => b + 1
  | .deserReg _ _ d => weights b d + b + 1
  | .byIndex e i d => weight b e + weight b i + weights b d + 1
  | .createAvl f d k v => weight b f + weight b d + weight b k + weights b v + 1
  | .coll _ items => weights b items + 1
  | .tuple items => weights b items + 1
  | .sigma _ items => weights b items + 1
  | .func _ body => weight b body + 1
  | .apply f args => weight b f + weights b args + 1
  | .block items r => weights b items + weight b r + 1
  | .valDef _ rhs => weight b rhs + 1
  | .method _ _ _ o args => weight b o + weights b args + 1
  | .property _ _ _ o => weight b o + 1
  | _ => 1
/-- The nodes of a list of scripts. -/
def weights (b : Nat) : List (Expr G B) → Nat
  | [] => 0
  | e :: l => weight b e + weights b l
end

variable [DecidableEq G]

/-- The world and the context are as declared. -/
structure Honours (D : Decls B) (W : World G B T) (C : EvalCtx G B) : Prop where
  selfBox : D.box C.selfBox
  inputs : ∀ b ∈ C.inputs, D.box b
  outputs : ∀ b ∈ C.outputs, D.box b
  dataInputs : ∀ b ∈ C.dataInputs, D.box b
  reg : ∀ r t, D.reg r t → ∀ b, D.box b → ∀ id c, RegId.ofI8 r = .ok id → getRegister W.box b id = .ok (some c) →
    WellTyped D.box c.v t
  var : ∀ id t, D.var id t → ∀ c, C.extension.get id = some c → c.tpe = t → WellTyped D.box c.v t
  codeVar : ∀ id t, D.codeVar id t → ∀ c, C.extension.get id = some c → WellTyped D.box c.v c.tpe ∧
    ∀ e, deserialize W t c = .ok e → Typed D [] e
  codeReg : ∀ r t, D.codeReg r t → ∀ id c, RegId.ofI8 r = .ok id → getRegister W.box C.selfBox id = .ok (some c) →
    WellTyped D.box c.v c.tpe ∧ ∀ e, deserialize W t c = .ok e → Typed D [] e

/-- The context variables that are there have the declared types. -/
def ExactVars (D : Decls B) (C : EvalCtx G B) : Prop := ∀ id t, D.var id t → ∀ c, C.extension.get id = some c → c.tpe = t

/-- Code from outside has at most `b` nodes and runs no further code from outside. -/
def SmallCode (D : Decls B) (W : World G B T) (C : EvalCtx G B) (b : Nat) : Prop :=
  (∀ id t, D.codeVar id t → ∀ c, C.extension.get id = some c → ∀ e, deserialize W t c = .ok e → weight b e ≤ b) ∧
  ∀ r t, D.codeReg r t → ∀ id c, RegId.ofI8 r = .ok id → getRegister W.box C.selfBox id = .ok (some c) →
    ∀ e, deserialize W t c = .ok e → weight b e ≤ b

end Verif.Spec
