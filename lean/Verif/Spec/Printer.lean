import Verif.Spec.Scope

/-!
# Specification: printing a script does not change it

Source of the claims: `ergotree-ir/src/pretty_printer/print.rs`, `ergotree-interpreter/src/eval.rs:129-187`.  These definitions do not use
the printer of the model.
-/

namespace Verif.Spec
open Expr
variable {G B : Type}

/-- The operands the printer shows.  Left out: defaults of `ByIndex` and `DeserializeRegister`, flags and value length of
`CreateAvlTree`. -/
def visited : Expr G B → List (Expr G B)
  | .op _ args => args
  | .bin _ l r => [l, r]
  | .cast _ e _ => [e]
  | .extractReg e _ _ => [e]
  | .selectField e _ => [e]
  | .byIndex e i _ => [e, i]
  | .createAvl _ d k _ => [d, k]
  | .coll _ items => items
  | .tuple items => items
  | .sigma _ items => items
  | .func _ body => [body]
  | .apply f args => f :: args
  | .block items r => r :: items
  | .valDef _ rhs => [rhs]
  | .method _ _ _ o args => o :: args
  | .property _ _ _ o => [o]
  | _ => []

/-- A condition on all nodes the printer shows. -/
inductive Shown (N : Expr G B → Prop) : Expr G B → Prop where
  | mk {e : Expr G B} (here : N e) (below : ∀ c ∈ visited e, Shown N c) : Shown N e

/-- The Boolean constants of a list that has nothing else. -/
def boolValues : List (Expr G B) → Option (List Bool)
  | [] => some []
  | .const ⟨_, .bool b⟩ :: l => (boolValues l).map (b :: ·)
  | _ => none

mutual
/-- The expression with every shown `Coll[Boolean]` of constants written as one constant collection. -/
def collapse : Expr G B → Expr G B
  | .coll t items =>
    match t, boolValues items with
    | .bool, some l => .bools l
    | t, _ => .coll t (collapseAll items)
  | .op o args => .op o (collapseAll args)
  | .bin k l r => .bin k (collapse l) (collapse r)
  | .cast u e t => .cast u (collapse e) t
  | .extractReg e r t => .extractReg (collapse e) r t
  | .selectField e i => .selectField (collapse e) i
  | .byIndex e i d => .byIndex (collapse e) (collapse i) d
  | .createAvl a b c d => .createAvl a (collapse b) (collapse c) d
  | .tuple items => .tuple (collapseAll items)
  | .sigma u items => .sigma u (collapseAll items)
  | .func args body => .func args (collapse body)
  | .apply e args => .apply (collapse e) (collapseAll args)
  | .block items r => .block (collapseAll items) (collapse r)
  | .valDef id rhs => .valDef id (collapse rhs)
  | .method ti mi sig obj args => .method ti mi sig (collapse obj) (collapseAll args)
  | .property ti mi sig obj => .property ti mi sig (collapse obj)
  | .deserReg r t d => .deserReg r t d
  | .const c => .const c
  | .placeholder id t => .placeholder id t
  | .valUse id t => .valUse id t
  | .bools l => .bools l
  | .getVar id t => .getVar id t
  | .deserCtx t id => .deserCtx t id
/-- All expressions of a list. -/
def collapseAll : List (Expr G B) → List (Expr G B)
  | [] => []
  | e :: l => collapse e :: collapseAll l
end

/-- What the reader checks of a node, as far as it matters for building the node again. -/
def ReadsAgain : Expr G B → Prop
  | .op o args => o ∈ [.map, .filter, .anyOf, .forAll, .optionGet, .optionGetOrElse] → o.check (tpes args) = true
  | .extractReg e _ _ => SOp.evalsTo e.tpe .box = true
  | .selectField e i => selectOk e.tpe i = true
  | .byIndex e i d => byIndexOk e.tpe i.tpe (tpes d) = true
  | .apply f args => applyOk f.tpe (tpes args) = true
  | _ => True

/-- What is asked of a node beyond what the reader checks, so that it can be built again: the function of `Fold` takes pairs of the
accumulator and an item, `Upcast` is between numbers, the items of a collection have its type. -/
def BuildsAgain : Expr G B → Prop
  | .op .fold [input, zero, f] => ∃ t r p, input.tpe.postEval = .coll t ∧ f.tpe = .func [.tuple [zero.tpe, t]] r p
  | .cast true e t => t.isNumeric = true ∧ e.tpe.postEval.isNumeric = true
  | .coll t items => ∀ x ∈ items, x.tpe = t
  | _ => True

/-- A function written out. -/
def isFunc : Expr G B → Bool
  | .func _ _ => true
  | _ => false

/-- `Filter` and `Fold` are given a function written out, not a variable. -/
def OwnFunction : Expr G B → Prop
  | .op .filter args => ∃ f ∈ args, isFunc f = true
  | .op .fold args => ∃ f ∈ args, isFunc f = true
  | _ => True

/-- The body of a function has no `Coll[Boolean]` of constants that would be rewritten. -/
def PlainBody : Expr G B → Prop
  | .func _ body => collapse body = body
  | _ => True

mutual
/-- How many nodes the printer shows. -/
def nodes : Expr G B → Nat
  | .op _ args => 1 + nodesAll args
  | .bin _ l r => 1 + nodes l + nodes r
  | .cast _ e _ => 1 + nodes e
  | .extractReg e _ _ => 1 + nodes e
  | .selectField e _ => 1 + nodes e
  | .byIndex e i _ => 1 + nodes e + nodes i
  | .createAvl _ d k _ => 1 + nodes d + nodes k
  | .coll _ items => 1 + nodesAll items
  | .tuple items => 1 + nodesAll items
  | .sigma _ items => 1 + nodesAll items
  | .func _ body => 1 + nodes body
  | .apply f args => 1 + nodes f + nodesAll args
  | .block items r => 1 + nodesAll items + nodes r
  | .valDef _ rhs => 1 + nodes rhs
  | .method _ _ _ o args => 1 + nodes o + nodesAll args
  | .property _ _ _ o => 1 + nodes o
  | .const _ => 1
  | .placeholder _ _ => 1
  | .valUse _ _ => 1
  | .bools _ => 1
  | .getVar _ _ => 1
  | .deserCtx _ _ => 1
  | .deserReg _ _ _ => 1
/-- The nodes of all expressions of a list. -/
def nodesAll : List (Expr G B) → Nat
  | [] => 0
  | e :: l => nodes e + nodesAll l
end

end Verif.Spec
