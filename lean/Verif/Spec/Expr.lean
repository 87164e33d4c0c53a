import Verif.Spec.Box
import Verif.Model.Expr

/-!
# Which expressions can be written and read back, and what constant segregation means

Stated on the expression, without reference to bytes.
-/

namespace Verif.Spec
open Expr
variable {G B : Type}

mutual
/-- The variables known (with their types) after the definitions inside `e`: definitions and function arguments enter the
table in the order in which they are written. -/
def after : Expr G B → TStore → TStore
  | .op _ args, st => afterAll args st
  | .bin _ l r, st => after r (after l st)
  | .cast _ e _, st => after e st
  | .extractReg e _ _, st => after e st
  | .selectField e _, st => after e st
  | .deserReg _ _ d, st => afterAll d st
  | .byIndex e i d, st => afterAll d (after i (after e st))
  | .createAvl f g k v, st => afterAll v (after k (after g (after f st)))
  | .coll _ items, st => afterAll items st
  | .tuple items, st => afterAll items st
  | .sigma _ items, st => afterAll items st
  | .func args body, st => after body (insertArgs st args)
  | .apply f args, st => afterAll args (after f st)
  | .block items r, st => after r (afterAll items st)
  | .valDef id rhs, st => (after rhs st).insert id rhs.tpe
  | .method _ _ _ obj args, st => afterAll args (after obj st)
  | .property _ _ _ obj, st => after obj st
  | .const _, st => st
  | .placeholder _ _, st => st
  | .valUse _ _, st => st
  | .bools _, st => st
  | .getVar _ _, st => st
  | .deserCtx _ _, st => st
/-- List part of `after`. -/
def afterAll : List (Expr G B) → TStore → TStore
  | [], st => st
  | e :: l, st => afterAll l (after e st)
end

/-- A type that has a byte form. -/
def GoodType (utf8 : Bytes → Bool) (t : SType) : Prop := WfType utf8 t ∧ NoFunc t

/-- A collection of Boolean constants. -/
def isBools : Expr G B → Bool
  | .bools _ => true
  | _ => false

mutual
/-- Expressions within the bounds of their Rust types, well-formed for a reader that knows the variables `st`, the constants
`R.consts` and the method tables: constants are well typed, variables and placeholders have the type of what they stand for,
operands pass the test made by the constructor, method signatures come from the table, item counts fit the length fields.
The left operand of a binary operation is not a collection of Boolean constants (see `C50_bools_operand_violates`). -/
def Good (utf8 : Bytes → Bool) (bwf : B → Prop) (R : Reader G B) : Expr G B → TStore → Prop
  | .const c, _ => GoodConst utf8 bwf c
  | .placeholder id t, _ => ∃ c, R.consts[id.toNat]? = some c ∧ c.tpe = t
  | .valUse id t, st => FMap.get st id = some t
  | .bools l, _ => l.length ≤ 65535
  | .op o args, st => args.length = o.arity ∧ o.check (tpes args) = true ∧ GoodAll utf8 bwf R args st
  | .bin _ l r, st => isBools l = false ∧ Good utf8 bwf R l st ∧ Good utf8 bwf R r (after l st)
  | .cast _ e t, st => GoodType utf8 t ∧ Good utf8 bwf R e st
  | .extractReg e _ t, st => GoodType utf8 t ∧ SOp.evalsTo e.tpe .box = true ∧ Good utf8 bwf R e st
  | .selectField e i, st => selectOk e.tpe i = true ∧ Good utf8 bwf R e st
  | .getVar _ t, _ => GoodType utf8 t
  | .deserCtx t _, _ => GoodType utf8 t
  | .deserReg _ t d, st => GoodType utf8 t ∧ d.length ≤ 1 ∧ GoodAll utf8 bwf R d st
  | .byIndex e i d, st => byIndexOk e.tpe i.tpe (tpes d) = true ∧ d.length ≤ 1 ∧ Good utf8 bwf R e st ∧
      Good utf8 bwf R i (after e st) ∧ GoodAll utf8 bwf R d (after i (after e st))
  | .createAvl f g k v, st => createAvlOk f.tpe g.tpe k.tpe (tpes v) = true ∧ v.length ≤ 1 ∧ Good utf8 bwf R f st ∧
      Good utf8 bwf R g (after f st) ∧ Good utf8 bwf R k (after g (after f st)) ∧
      GoodAll utf8 bwf R v (after k (after g (after f st)))
  | .coll t items, st => GoodType utf8 t ∧ items.length ≤ 65535 ∧ GoodAll utf8 bwf R items st
  | .tuple items, st => 2 ≤ items.length ∧ items.length ≤ 255 ∧ GoodAll utf8 bwf R items st
  | .sigma _ items, st => allSigma (tpes items) = true ∧ 2 ≤ items.length ∧ items.length ≤ 255 ∧
      GoodAll utf8 bwf R items st
  | .func args body, st => args.length < 2 ^ 32 ∧ (∀ a ∈ args, GoodType utf8 a.2) ∧
      Good utf8 bwf R body (insertArgs st args)
  | .apply f args, st => applyOk f.tpe (tpes args) = true ∧ args.length < 2 ^ 32 ∧ Good utf8 bwf R f st ∧
      GoodAll utf8 bwf R args (after f st)
  | .block items r, st => items.length < 2 ^ 32 ∧ GoodAll utf8 bwf R items st ∧
      Good utf8 bwf R r (afterAll items st)
  | .valDef _ rhs, st => Good utf8 bwf R rhs st
  | .method ti mi sig obj args, st => specialize R.methods ti mi (obj.tpe :: tpes args) = some sig ∧
      args.length < 2 ^ 32 ∧ Good utf8 bwf R obj st ∧ GoodAll utf8 bwf R args (after obj st)
  | .property ti mi sig obj, st => specialize R.methods ti mi [obj.tpe] = some sig ∧ Good utf8 bwf R obj st
/-- List part of `Good`. -/
def GoodAll (utf8 : Bytes → Bool) (bwf : B → Prop) (R : Reader G B) : List (Expr G B) → TStore → Prop
  | [], _ => True
  | e :: l, st => Good utf8 bwf R e st ∧ GoodAll utf8 bwf R l (after e st)
end

mutual
/-- `e` with every placeholder replaced by what `f` gives for it. -/
def mapPh (f : BitVec 32 → SType → Expr G B) : Expr G B → Expr G B
  | .placeholder id t => f id t
  | .op o args => .op o (mapPhs f args)
  | .bin k l r => .bin k (mapPh f l) (mapPh f r)
  | .cast u e t => .cast u (mapPh f e) t
  | .extractReg e r t => .extractReg (mapPh f e) r t
  | .selectField e i => .selectField (mapPh f e) i
  | .deserReg r t d => .deserReg r t (mapPhs f d)
  | .byIndex e i d => .byIndex (mapPh f e) (mapPh f i) (mapPhs f d)
  | .createAvl a b c d => .createAvl (mapPh f a) (mapPh f b) (mapPh f c) (mapPhs f d)
  | .coll t items => .coll t (mapPhs f items)
  | .tuple items => .tuple (mapPhs f items)
  | .sigma u items => .sigma u (mapPhs f items)
  | .func args body => .func args (mapPh f body)
  | .apply e args => .apply (mapPh f e) (mapPhs f args)
  | .block items r => .block (mapPhs f items) (mapPh f r)
  | .valDef id rhs => .valDef id (mapPh f rhs)
  | .method ti mi sig obj args => .method ti mi sig (mapPh f obj) (mapPhs f args)
  | .property ti mi sig obj => .property ti mi sig (mapPh f obj)
  | .const c => .const c
  | .valUse id t => .valUse id t
  | .bools l => .bools l
  | .getVar id t => .getVar id t
  | .deserCtx t id => .deserCtx t id
/-- List part of `mapPh`. -/
def mapPhs (f : BitVec 32 → SType → Expr G B) : List (Expr G B) → List (Expr G B)
  | [] => []
  | e :: l => mapPh f e :: mapPhs f l
end

/-- `e` with every placeholder replaced by the constant it stands for. -/
def substAll (C : List (Constant G B)) (e : Expr G B) : Expr G B :=
  mapPh (fun id t => match C[id.toNat]? with
    | some c => .const c
    | none => .placeholder id t) e

mutual
/-- No constants, except for the two operands of a binary operation on Boolean constants. -/
def NoConst : Expr G B → Prop
  | .const _ => False
  | .op _ args => NoConsts args
  | .bin _ l r => (boolConst? l ≠ none ∧ boolConst? r ≠ none) ∨ (NoConst l ∧ NoConst r)
  | .cast _ e _ => NoConst e
  | .extractReg e _ _ => NoConst e
  | .selectField e _ => NoConst e
  | .deserReg _ _ d => NoConsts d
  | .byIndex e i d => NoConst e ∧ NoConst i ∧ NoConsts d
  | .createAvl a b c d => NoConst a ∧ NoConst b ∧ NoConst c ∧ NoConsts d
  | .coll _ items => NoConsts items
  | .tuple items => NoConsts items
  | .sigma _ items => NoConsts items
  | .func _ body => NoConst body
  | .apply e args => NoConst e ∧ NoConsts args
  | .block items r => NoConsts items ∧ NoConst r
  | .valDef _ rhs => NoConst rhs
  | .method _ _ _ obj args => NoConst obj ∧ NoConsts args
  | .property _ _ _ obj => NoConst obj
  | .placeholder _ _ => True
  | .valUse _ _ => True
  | .bools _ => True
  | .getVar _ _ => True
  | .deserCtx _ _ => True
/-- List part of `NoConst`. -/
def NoConsts : List (Expr G B) → Prop
  | [] => True
  | e :: l => NoConst e ∧ NoConsts l
end

mutual
/-- No placeholders. -/
def NoPh : Expr G B → Prop
  | .placeholder _ _ => False
  | .op _ args => NoPhs args
  | .bin _ l r => NoPh l ∧ NoPh r
  | .cast _ e _ => NoPh e
  | .extractReg e _ _ => NoPh e
  | .selectField e _ => NoPh e
  | .deserReg _ _ d => NoPhs d
  | .byIndex e i d => NoPh e ∧ NoPh i ∧ NoPhs d
  | .createAvl a b c d => NoPh a ∧ NoPh b ∧ NoPh c ∧ NoPhs d
  | .coll _ items => NoPhs items
  | .tuple items => NoPhs items
  | .sigma _ items => NoPhs items
  | .func _ body => NoPh body
  | .apply e args => NoPh e ∧ NoPhs args
  | .block items r => NoPhs items ∧ NoPh r
  | .valDef _ rhs => NoPh rhs
  | .method _ _ _ obj args => NoPh obj ∧ NoPhs args
  | .property _ _ _ obj => NoPh obj
  | .const _ => True
  | .valUse _ _ => True
  | .bools _ => True
  | .getVar _ _ => True
  | .deserCtx _ _ => True
/-- List part of `NoPh`. -/
def NoPhs : List (Expr G B) → Prop
  | [] => True
  | e :: l => NoPh e ∧ NoPhs l
end

/-- What a reader makes of an expression: with placeholder substitution, placeholders become constants. -/
def readAs (R : Reader G B) (e : Expr G B) : Expr G B := if R.subst then substAll R.consts e else e

end Verif.Spec

namespace Verif.Spec
open Expr
variable {G B : Type}

mutual
/-- The constants of an expression in the order in which they are written, without those of a binary operation on two
Boolean constants (which has its own byte form). -/
def constsOf : Expr G B → List (Constant G B)
  | .const c => [c]
  | .op _ args => constsOfs args
  | .bin _ l r => if (boolConst? l).isSome && (boolConst? r).isSome then [] else constsOf l ++ constsOf r
  | .cast _ e _ => constsOf e
  | .extractReg e _ _ => constsOf e
  | .selectField e _ => constsOf e
  | .deserReg _ _ d => constsOfOpt d
  | .byIndex e i d => constsOf e ++ constsOf i ++ constsOfOpt d
  | .createAvl a b c d => constsOf a ++ constsOf b ++ constsOf c ++ constsOfOpt d
  | .coll _ items => constsOfs items
  | .tuple items => constsOfs items
  | .sigma _ items => constsOfs items
  | .func _ body => constsOf body
  | .apply e args => constsOf e ++ constsOfs args
  | .block items r => constsOfs items ++ constsOf r
  | .valDef _ rhs => constsOf rhs
  | .method _ _ _ obj args => constsOf obj ++ constsOfs args
  | .property _ _ _ obj => constsOf obj
  | .placeholder _ _ => []
  | .valUse _ _ => []
  | .bools _ => []
  | .getVar _ _ => []
  | .deserCtx _ _ => []
/-- List part of `constsOf`. -/
def constsOfs : List (Expr G B) → List (Constant G B)
  | [] => []
  | e :: l => constsOf e ++ constsOfs l
/-- `constsOf` of an optional sub-expression (a list with at most one element). -/
def constsOfOpt : List (Expr G B) → List (Constant G B)
  | [] => []
  | e :: _ => constsOf e
end

end Verif.Spec
