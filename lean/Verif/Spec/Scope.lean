import Verif.Model.Eval

/-!
# Conditions on all parts of an expression or a value
-/

namespace Verif.Spec
variable {G B T : Type}

/-- The direct sub-expressions. -/
def children : Expr G B → List (Expr G B)
  | .op _ args => args
  | .bin _ l r => [l, r]
  | .cast _ e _ => [e]
  | .extractReg e _ _ => [e]
  | .selectField e _ => [e]
  | .deserReg _ _ d => d
  | .byIndex e i d => e :: i :: d
  | .createAvl f d k v => f :: d :: k :: v
  | .coll _ items => items
  | .tuple items => items
  | .sigma _ items => items
  | .func _ body => [body]
  | .apply f args => f :: args
  | .block items r => r :: items
  | .valDef _ rhs => [rhs]
  | .method _ _ _ o args => o :: args
  | .property _ _ _ o => [o]
  | _ => []

/-- `N` holds of the expression and of all its parts. -/
inductive Everywhere (N : Expr G B → Prop) : Expr G B → Prop where
  | mk {e : Expr G B} (here : N e) (below : ∀ c ∈ children e, Everywhere N c) : Everywhere N e

/-- The values directly inside a value. -/
def parts : Value G B → List (Value G B)
  | .coll _ items => items
  | .tup items => items
  | .some v => [v]
  | _ => []

/-- `L` holds of all functions in the value. -/
inductive AllLam (L : List (BitVec 32 × SType) → Expr G B → Prop) : Value G B → Prop where
  | mk {v : Value G B} (here : ∀ args body, v = .lam args body → L args body) (below : ∀ c ∈ parts v, AllLam L c) : AllLam L v

/-- The variables a list of block items defines. -/
def definedIds : List (Expr G B) → List (BitVec 32)
  | [] => []
  | .valDef id _ :: l => id :: definedIds l
  | _ :: l => definedIds l

/-- A node does not bind a variable twice at once. -/
def DistinctBinders : Expr G B → Prop
  | .func args _ => (args.map Prod.fst).Nodup
  | .block items _ => (definedIds items).Nodup
  | _ => True

/-- Nothing binds a variable twice at once: the blocks and functions of scripts made by the compiler number their variables
one after the other. -/
def Tidy : Expr G B → Prop := Everywhere DistinctBinders

/-- All functions in the value are tidy. -/
def TidyValue : Value G B → Prop := AllLam fun args body => Tidy (.func args body)

/-- The same bindings. -/
def SameBindings (a b : FMap (BitVec 32) (Value G B)) : Prop := ∀ id, a.get id = b.get id

/-- States that cannot be told apart under the limit. -/
def Alike (lim : Option Nat) (s t : EvalSt G B) : Prop := SameBindings s.env t.env ∧ (lim = none ∨ s.cost = t.cost)

/-- Outcomes that cannot be told apart under the limit. -/
def SameRes {α : Type} (lim : Option Nat) : Res (α × EvalSt G B) → Res (α × EvalSt G B) → Prop
  | .ok x, .ok y => x.1 = y.1 ∧ Alike lim x.2 y.2
  | .err e, .err e' => e = e'
  | .panic, .panic => True
  | .out, .out => True
  | _, _ => False

end Verif.Spec
