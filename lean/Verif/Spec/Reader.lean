import Verif.Spec.Expr
import Verif.Spec.Typing
import Verif.Spec.Denotation

/-!
# Which scripts a reader accepts

Stated on the script, without reference to bytes: the rules a reader enforces, and what a script must satisfy beyond them to be typed.
-/

namespace Verif.Spec
open Expr
variable {G B : Type}

/-- The type a script works with where an operand of type `t` is wanted: for a function it is the result. -/
inductive Yields : SType → SType → Prop where
  | value (t : SType) (h : isFuncTy t = false) : Yields t t
  | result (d : List SType) (r : SType) (ps : List Bytes) : Yields (.func d r ps) r

/-- Operators read without a test. -/
def freeOps : List SOp :=
  [.height, .inputs, .outputs, .selfBox, .minerPubKey, .groupGenerator, .global, .context, .and, .or, .xorOf, .fold, .ifOp, .treeLookup,
    .createProveDhTuple, .multiplyGroup, .exponentiate]

/-- Operators with one operand of a fixed type. -/
def unaryOps : List (SOp × SType) :=
  [(.logicalNot, .bool), (.extractAmount, .box), (.extractBytes, .box), (.extractBytesWithNoRef, .box), (.extractScriptBytes, .box),
    (.extractCreationInfo, .box), (.extractId, .box), (.boolToSigmaProp, .bool), (.createProveDlog, .groupElement),
    (.sigmaPropBytes, .sigmaProp), (.decodePoint, .coll .byte), (.calcBlake2b256, .coll .byte), (.calcSha256, .coll .byte),
    (.byteArrayToLong, .coll .byte), (.byteArrayToBigInt, .coll .byte), (.longToByteArray, .long)]

/-- The operand types a reader accepts. -/
inductive OpRule : SOp → List SType → Prop where
  | free (o : SOp) (ts : List SType) (h : o ∈ freeOps) : OpRule o ts
  | unary (o : SOp) (t u : SType) (h : (o, u) ∈ unaryOps) (ht : Yields t u) : OpRule o [t]
  | number (o : SOp) (t : SType) (n : NumTy) (h : o ∈ [SOp.negation, .bitInversion]) (ht : Yields t n.stype) : OpRule o [t]
  | option (o : SOp) (t u : SType) (h : o ∈ [SOp.optionGet, .optionIsDefined]) (ht : Yields t (.option u)) : OpRule o [t]
  | sizeOf (t u : SType) (ht : Yields t (.coll u)) : OpRule .sizeOf [t]
  | append (a b u : SType) (ha : Yields a (.coll u)) (hb : Yields b (.coll u)) : OpRule .append [a, b]
  | xor (a b : SType) (ha : Yields a (.coll .byte)) (hb : Yields b (.coll .byte)) : OpRule .xor [a, b]
  | atleast (a b : SType) (ha : Yields a .int) (hb : Yields b (.coll .sigmaProp)) : OpRule .atleast [a, b]
  | map (a u r : SType) (ps : List Bytes) (ha : Yields a (.coll u)) : OpRule .map [a, .func [u] r ps]
  | predicate (o : SOp) (a u : SType) (ps : List Bytes) (h : o ∈ [SOp.filter, .anyOf, .forAll]) (ha : Yields a (.coll u)) :
    OpRule o [a, .func [u] .bool ps]
  | getOrElse (a d u : SType) (ha : Yields a (.option u)) (hd : Yields d u) : OpRule .optionGetOrElse [a, d]
  | slice (a i j u : SType) (ha : Yields a (.coll u)) (hi : Yields i .int) (hj : Yields j .int) : OpRule .slice [a, i, j]
  | substConstants (s p v u : SType) (hs : Yields s (.coll .byte)) (hp : Yields p (.coll .int)) (hv : Yields v (.coll u)) :
    OpRule .substConstants [s, p, v]

mutual
/-- A type with its variables replaced. -/
def inst (ρ : Bytes → Option SType) : SType → SType
  | .typeVar n => (ρ n).getD (.typeVar n)
  | .option t => .option (inst ρ t)
  | .coll t => .coll (inst ρ t)
  | .tuple l => .tuple (insts ρ l)
  | .func d r p => .func (insts ρ d) (inst ρ r) (p.filter fun v => (ρ v).isNone)
  | t => t
/-- List part of `inst`. -/
def insts (ρ : Bytes → Option SType) : List SType → List SType
  | [] => []
  | t :: l => inst ρ t :: insts ρ l
end

/-- A call of a method: the method is in the table, and its type variables can be replaced so that the declared operand types are the
actual ones. -/
def MethodRule (M : Byte → Byte → Option FuncSig) (t m : Byte) (sig : FuncSig) (actual : List SType) : Prop :=
  ∃ raw ρ, M t m = some raw ∧ insts ρ raw.dom = actual ∧ sig.dom = actual ∧ sig.range = inst ρ raw.range

/-- What a reader enforces at one node.  Nothing is enforced at binary operators, at collections (the items may have any type) and in
blocks (the items need not be definitions). -/
def NodeRule (utf8 : Bytes → Bool) (bwf : B → Prop) (R : Reader G B) : Expr G B → Prop
  | .const c => GoodConst utf8 bwf c
  | .placeholder id t => R.subst = false ∧ ∃ c, R.consts[id.toNat]? = some c ∧ c.tpe = t
  | .op o args => args.length = o.arity ∧ OpRule o (tpes args)
  | .cast _ _ t => GoodType utf8 t
  | .extractReg e _ t => GoodType utf8 t ∧ Yields e.tpe .box
  | .selectField e i => ∃ ts, e.tpe = .tuple ts ∧ 1 ≤ i.toNat ∧ i.toNat ≤ ts.length
  | .getVar _ t => GoodType utf8 t
  | .deserCtx t _ => GoodType utf8 t
  | .deserReg _ t _ => GoodType utf8 t
  | .byIndex e i d => ∃ u, Yields e.tpe (.coll u) ∧ Yields i.tpe .int ∧ ∀ x ∈ d, Yields x.tpe u
  | .createAvl f d k v => Yields f.tpe .byte ∧ Yields d.tpe (.coll .byte) ∧ Yields k.tpe .int ∧ ∀ x ∈ v, Yields x.tpe .int
  | .coll t _ => GoodType utf8 t
  | .tuple items => 2 ≤ items.length ∧ items.length ≤ 255
  | .sigma _ items => 2 ≤ items.length ∧ items.length ≤ 255 ∧ ∀ x ∈ items, Yields x.tpe .sigmaProp
  | .func args _ => ∀ a ∈ args, GoodType utf8 a.2
  | .apply f args => ∃ r ps, f.tpe = .func (tpes args) r ps
  | .method t m sig o args => MethodRule R.methods t m sig (o.tpe :: tpes args)
  | .property t m sig o => MethodRule R.methods t m sig [o.tpe]
  | _ => True

/-- Every variable is used where it is in scope, definitions occur in blocks only, and no variable is bound again while it is in scope. -/
inductive Scoped : List (BitVec 32) → Expr G B → Prop where
  | use (ids id t) (h : id ∈ ids) : Scoped ids (.valUse id t)
  | func (ids args body) (hn : (args.map Prod.fst).Nodup) (hf : ∀ a ∈ args, a.1 ∉ ids) (h : Scoped (args.map Prod.fst ++ ids) body) :
    Scoped ids (.func args body)
  | block (ids) (defs : List (BitVec 32 × Expr G B)) (r)
    (hd : ∀ pre d post, defs = pre ++ d :: post → Scoped (pre.map Prod.fst ++ ids) d.2)
    (hf : ∀ pre d post, defs = pre ++ d :: post → d.1 ∉ pre.map Prod.fst ++ ids)
    (hr : Scoped (defs.map Prod.fst ++ ids) r) : Scoped ids (.block (defs.map fun d => .valDef d.1 d.2) r)
  | other (ids e) (h : match e with | .valUse _ _ | .func _ _ | .block _ _ | .valDef _ _ => False | _ => True)
    (hc : ∀ c ∈ children e, Scoped ids c) : Scoped ids e

/-- What a reader does not enforce at a node, and a typed script needs: the operands of the operators read without a test and of the
binary operators, the items of collections, the results of functions and blocks, and the declarations from outside. -/
def Residue (D : Decls B) : Expr G B → Prop
  | .op o args => o ∈ freeOps → OpOk o (tpes args)
  | .bin k l r => BinOk k l.tpe r.tpe
  | .coll t items => ∀ e ∈ items, e.tpe = t
  | .func _ body => NoFunc body.tpe
  | .block _ r => NoFunc r.tpe
  | .extractReg _ r t => D.reg r t
  | .getVar id t => D.var id t
  | .deserCtx t id => D.codeVar id t
  | .deserReg r t _ => D.codeReg r t
  | .method t m _ _ _ => ¬ badMethod t m
  | .property t m _ _ => ¬ badMethod t m
  | _ => True

end Verif.Spec
