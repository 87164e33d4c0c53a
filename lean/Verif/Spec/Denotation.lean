import Verif.Spec.Typing
import Verif.Model.Eval

/-!
# What scripts mean

A compositional semantics, without state, stack and cost: the meaning of a script is computed from the meanings of its parts, a variable
means what it was defined as where it is visible in the text, and a function is a mathematical function.  The basic operations on values
(`Value.strictOp`, `Value.binNum`, `Value.pureMethod`, conversions) are those of the model; they are the subject of other properties.
-/

namespace Verif.Spec
variable {G B T : Type}

/-- A function of a script. -/
abbrev Fn (G B : Type) := List (Value G B) → Res (Value G B)

/-- The meaning of an expression: a value or a function on values. -/
inductive Den (G B : Type) where
  | val (v : Value G B)
  | fn (f : Fn G B)

/-- Meanings of the variables in scope, the last bound first. -/
abbrev DEnv (G B : Type) := List (BitVec 32 × Den G B)

/-- The meaning of a variable. -/
def lookup : DEnv G B → BitVec 32 → Res (Den G B)
  | [], _ => .err .notFound
  | (i, d) :: ρ, id => if i = id then .ok d else lookup ρ id

/-- The scope in the body of a function. -/
def bindAll (args : List (BitVec 32 × SType)) (vs : List (Value G B)) (ρ : DEnv G B) : DEnv G B :=
  (args.zip vs).map (fun p => (p.1.1, .val p.2)) ++ ρ

/-- An operand that is a value. -/
def value (r : Res (Den G B)) : Res (Value G B) :=
  r >>= fun d => match d with
    | .val v => .ok v
    | .fn _ => .err .misc

/-- An operand that is a function. -/
def func (r : Res (Den G B)) : Res (Fn G B) :=
  r >>= fun d => match d with
    | .val _ => .err .misc
    | .fn f => .ok f

/-- Operands that are values; the first error counts. -/
def values : List (Res (Den G B)) → Res (List (Value G B))
  | [] => .ok []
  | d :: l => value d >>= fun v => values l >>= fun vs => .ok (v :: vs)

/-- Booleans. -/
def truth : Value G B → Res Bool
  | .bool b => .ok b
  | _ => .err .tryExtract

/-- Items of a collection. -/
def collItems : Value G B → Res (List (Value G B))
  | .coll _ l => .ok l
  | .collByte b => .ok (b.map .byte)
  | _ => .err .tryExtract

/-- Bytes among values. -/
def byteItems : List (Value G B) → List Byte
  | .byte b :: l => b :: byteItems l
  | _ :: l => byteItems l
  | [] => []

/-- The collection of some items. -/
def collOf (t : SType) (l : List (Value G B)) : Value G B :=
  if t.beq .byte then .collByte (byteItems l) else .coll t l

/-- A function on every item; the first error counts. -/
def eachItem (f : Value G B → Res (Value G B)) : List (Value G B) → Res (List (Value G B))
  | [] => .ok []
  | x :: l => f x >>= fun y => eachItem f l >>= fun ys => .ok (y :: ys)

/-- The items that satisfy a condition. -/
def keepItems (p : Value G B → Res Bool) : List (Value G B) → Res (List (Value G B))
  | [] => .ok []
  | x :: l => p x >>= fun b => keepItems p l >>= fun ys => .ok (if b then x :: ys else ys)

/-- Some item satisfies a condition; items after the first one are not looked at. -/
def someItem (p : Value G B → Res Bool) : List (Value G B) → Res Bool
  | [] => .ok false
  | x :: l => p x >>= fun b => if b then .ok true else someItem p l

/-- All items satisfy a condition; items after the first failing one are not looked at. -/
def everyItem (p : Value G B → Res Bool) : List (Value G B) → Res Bool
  | [] => .ok true
  | x :: l => p x >>= fun b => if b then everyItem p l else .ok false

/-- A fold from the left. -/
def foldItems (f : Value G B → Value G B → Res (Value G B)) : Value G B → List (Value G B) → Res (Value G B)
  | z, [] => .ok z
  | z, x :: l => f z x >>= fun z => foldItems f z l

/-- The result type of a function. -/
def rangeOf : SType → SType
  | .func _ r _ => r
  | t => t
/-- The element type of a collection. -/
def elemOf : SType → SType
  | .coll t => t
  | t => t

variable [DecidableEq G] [DecidableEq B] [DecidableEq (Value G B)]

/-- Nodes with a fixed number of operands, from the types and meanings of the operands. -/
def opDen (W : World G B T) (C : EvalCtx G B) (o : SOp) (ts : List SType) (ds : List (Res (Den G B))) : Res (Den G B) :=
  match o, ts, ds with
  | .ifOp, _, [c, a, b] => value c >>= truth >>= fun x => if x then a else b
  | .map, [_, ft], [c, f] => value c >>= fun c => func f >>= fun f => collItems c >>= eachItem (fun x => f [x]) >>= fun l =>
    .ok (.val (collOf (rangeOf ft) l))
  | .filter, [ct, _], [c, f] => value c >>= fun c => func f >>= fun f => collItems c >>= keepItems (fun x => f [x] >>= truth) >>= fun l =>
    .ok (.val (collOf (elemOf ct) l))
  | .anyOf, _, [c, f] => value c >>= fun c => func f >>= fun f => collItems c >>= someItem (fun x => f [x] >>= truth) >>= fun b =>
    .ok (.val (.bool b))
  | .forAll, _, [c, f] => value c >>= fun c => func f >>= fun f => collItems c >>= everyItem (fun x => f [x] >>= truth) >>= fun b =>
    .ok (.val (.bool b))
  | .fold, _, [c, z, f] => value c >>= fun c => value z >>= fun z => func f >>= fun f => collItems c >>=
    foldItems (fun a x => f [.tup [a, x]]) z >>= fun v => .ok (.val v)
  | .treeLookup, _, ds => values ds >>= fun vs => match vs with
    | [.avlTree t, .collByte k, .collByte p] => Value.avlLookup W t k p >>= fun r => .ok (.val (match r with | some b => .some (.collByte b) | none => .none))
    | _ => .err .misc
  | .createProveDhTuple, _, ds => values ds >>= fun vs => match vs with
    | [.groupElement g, .groupElement h, .groupElement u, .groupElement v] => .ok (.val (.sigmaProp (.dht g h u v)))
    | _ => .err .misc
  | o, _, ds => values ds >>= fun vs => Value.strictOp W C o vs >>= fun v => .ok (.val v)

/-- Binary operators: `&&` and `||` do not look at the right operand if the left one decides. -/
def binDen (k : BinK) (l r : Res (Den G B)) : Res (Den G B) :=
  match k with
  | .and => value l >>= truth >>= fun a => if a then value r >>= truth >>= fun b => .ok (.val (.bool b)) else .ok (.val (.bool false))
  | .or => value l >>= truth >>= fun a => if a then .ok (.val (.bool true)) else value r >>= truth >>= fun b => .ok (.val (.bool b))
  | .xor => value l >>= truth >>= fun a => value r >>= truth >>= fun b => .ok (.val (.bool (a != b)))
  | .eq => value l >>= fun a => value r >>= fun b => .ok (.val (.bool (decide (a = b))))
  | .neq => value l >>= fun a => value r >>= fun b => .ok (.val (.bool (decide (a ≠ b))))
  | k => value l >>= fun a => value r >>= fun b => Value.binNum k a b >>= fun v => .ok (.val v)

/-- A function on the content of an option. -/
def mapOption (f : Fn G B) : Value G B → Res (Value G B)
  | .some x => f [x] >>= fun y => .ok (.some y)
  | _ => .ok .none
/-- The option if its content satisfies a condition. -/
def filterOption (f : Fn G B) : Value G B → Res (Value G B)
  | .some x => f [x] >>= truth >>= fun b => .ok (if b then .some x else .none)
  | _ => .ok .none

/-- Methods. -/
def methodDen (W : World G B T) (C : EvalCtx G B) (t m : Byte) (o : Res (Den G B)) (args : List (Res (Den G B))) : Res (Den G B) :=
  if t = 36 ∧ m = 7 then
    match args with
    | [f] => value o >>= fun o => func f >>= fun f => mapOption f o >>= fun v => .ok (.val v)
    | _ => .err .misc
  else if t = 36 ∧ m = 8 then
    match args with
    | [f] => value o >>= fun o => func f >>= fun f => filterOption f o >>= fun v => .ok (.val v)
    | _ => .err .misc
  else value o >>= fun o => values args >>= fun vs => Value.pureMethod W C t.toNat m.toNat o vs >>= fun v => .ok (.val v)

section
variable (W : World G B T) (C : EvalCtx G B) (code : Expr G B → Res (Den G B))

mutual
/-- The meaning of an expression in a scope; `code` gives the meaning of code from outside. -/
def den : DEnv G B → Expr G B → Res (Den G B)
  | _, .const c => .ok (.val (Value.ofLiteral c.v))
  | ρ, .valUse id _ => lookup ρ id
  | _, .bools l => .ok (.val (.coll .bool (l.map .bool)))
  | ρ, .op o args => opDen W C o (Expr.tpes args) (dens ρ args)
  | ρ, .bin k l r => binDen k (den ρ l) (den ρ r)
  | ρ, .cast up e t => value (den ρ e) >>= fun v => (if up then Value.upcast t v else Value.downcast t v) >>= fun v => .ok (.val v)
  | ρ, .extractReg e r _ => value (den ρ e) >>= fun v => match v with
    | .box b => Value.regOption W.box b r >>= fun v => .ok (.val v)
    | _ => .err .misc
  | ρ, .selectField e i => value (den ρ e) >>= fun v => match v with
    | .tup l => match l[i.toNat - 1]? with
      | some v => .ok (.val v)
      | none => .err .notFound
    | _ => .err .misc
  | _, .getVar id t => match C.extension.get id with
    | none => .ok (.val .none)
    | some c => if c.tpe.beq t then .ok (.val (.some (Value.ofLiteral c.v))) else .err .tryExtract
  | _, .deserCtx t id => match C.extension.get id with
    | none => .err .notFound
    | some c => deserialize W t c >>= code
  | ρ, .deserReg r t d => RegId.ofI8 r >>= fun id => match getRegister W.box C.selfBox id with
    | .ok (some c) => deserialize W t c >>= code
    | .panic => .panic
    | _ => match dens ρ d, Expr.tpes d with
      | x :: _, dt :: _ => if dt.beq t then x else .err .unexpectedExpr
      | _, _ => .err .notFound
  | ρ, .byIndex e i d => value (den ρ e) >>= fun c => value (den ρ i) >>= fun i => collItems c >>= fun l => match i, dens ρ d with
    | .int i, [] => match l[usizeOf i]? with
      | some v => .ok (.val v)
      | none => .err .misc
    | .int i, x :: _ => value x >>= fun x => .ok (.val (l[usizeOf i]?.getD x))
    | _, _ => .err .misc
  | ρ, .createAvl f d k v => values (den ρ f :: den ρ d :: den ρ k :: (dens ρ v).take 1) >>= fun vs => match vs with
    | [.byte f, .collByte d, .int k] => Value.mkAvl f d k none >>= fun v => .ok (.val v)
    | [.byte f, .collByte d, .int k, .int v] => Value.mkAvl f d k (some v) >>= fun v => .ok (.val v)
    | _ => .err .misc
  | ρ, .coll t items => values (dens ρ items) >>= fun vs => .ok (.val (collOf t vs))
  | ρ, .tuple items => values (dens ρ items) >>= fun vs => .ok (.val (.tup vs))
  | ρ, .sigma isAnd items => values (dens ρ items) >>= fun vs => Res.mapAll Value.asSigma vs >>= fun ps =>
    Res.ofOutcome .misc (if isAnd then SigmaBoolean.candNormalized ps else SigmaBoolean.corNormalized ps) >>= fun p =>
    .ok (.val (.sigmaProp p))
  | ρ, .func args body => .ok (.fn fun vs => value (den (bindAll args vs ρ) body))
  | ρ, .apply f args => func (den ρ f) >>= fun f => values (dens ρ args) >>= fun vs => f vs >>= fun v => .ok (.val v)
  | ρ, .block items r => defs ρ items >>= fun ρ' => den ρ' r
  | ρ, .method t m _ o args => methodDen W C t m (den ρ o) (dens ρ args)
  | ρ, .property t m _ o => methodDen W C t m (den ρ o) []
  | _, .placeholder _ _ => .err .unexpectedExpr
  | _, .valDef _ _ => .err .unexpectedExpr
/-- The meanings of operands. -/
def dens : DEnv G B → List (Expr G B) → List (Res (Den G B))
  | _, [] => []
  | ρ, e :: l => den ρ e :: dens ρ l
/-- The scope after the definitions of a block. -/
def defs : DEnv G B → List (Expr G B) → Res (DEnv G B)
  | ρ, [] => .ok ρ
  | ρ, .valDef id rhs :: l => den ρ rhs >>= fun d => defs ((id, d) :: ρ) l
  | _, _ :: _ => .err .tryExtract
end
end

/-- The meaning of a whole script, with `n` levels of code from outside. -/
def meaning (W : World G B T) (C : EvalCtx G B) : Nat → Expr G B → Res (Den G B)
  | 0, _ => .out
  | n + 1, e => den W C (meaning W C n) [] e

/-- Functions occur only where they are defined, named, called or given to a collection or option. -/
def isFuncTy : SType → Bool
  | .func _ _ _ => true
  | _ => false

/-- The parts of a node that must be values. -/
def valueParts : Expr G B → List (Expr G B)
  | .op o args => if o ∈ [SOp.map, .filter, .anyOf, .forAll, .fold] then args.dropLast else args
  | .bin _ l r => [l, r]
  | .cast _ e _ => [e]
  | .extractReg e _ _ => [e]
  | .selectField e _ => [e]
  | .deserReg _ _ d => d
  | .byIndex e i d => e :: i :: d
  | .createAvl f d k v => f :: d :: k :: v
  | .coll _ items => items
  | .tuple items => items
  | .sigma _ items => items
  | .func _ body => [body]
  | .apply _ args => args
  | .block _ r => [r]
  | .method t _ _ o args => if t = 36 then [o] else o :: args
  | .property _ _ _ o => [o]
  | _ => []

/-- Nodes that may be functions. -/
def functionNode : Expr G B → Bool
  | .valUse _ _ => true
  | .func _ _ => true
  | .valDef _ _ => true
  | _ => false

/-- Functions are not data: the script never puts a function where a value is needed, and never computes one. -/
def FirstOrder (e : Expr G B) : Prop :=
  Everywhere (fun e => (∀ x ∈ valueParts e, isFuncTy x.tpe = false) ∧ (isFuncTy e.tpe = true → functionNode e = true)) e

/-- Functions are not data in code from outside either. -/
def FirstOrderCode (D : Decls B) (W : World G B T) (C : EvalCtx G B) : Prop :=
  (∀ id t, D.codeVar id t → ∀ c, C.extension.get id = some c → ∀ e, deserialize W t c = .ok e → FirstOrder e) ∧
  ∀ r t, D.codeReg r t → ∀ id c, RegId.ofI8 r = .ok id → getRegister W.box C.selfBox id = .ok (some c) →
    ∀ e, deserialize W t c = .ok e → FirstOrder e

end Verif.Spec
