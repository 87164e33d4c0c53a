import Verif.Model.SType
import Verif.Model.FMap

/-!
# Type unification

Source: `ergotree-ir/src/types/type_unify.rs`, `with_subst` of `stype.rs:100-109`, `sfunc.rs:42-57`, `stuple.rs:74-78`.
-/

namespace Verif

/-- `HashMap<STypeVar, SType>`; a type variable is its name, `ergotree-ir/src/types/type_unify.rs:8, 17`. -/
abbrev Subst := FMap Bytes SType

namespace SType

/-- `SType::is_prim`, `stype.rs:78-98`. -/
def isPrim : SType → Bool
  | byte => true
  | short => true
  | int => true
  | long => true
  | bigInt => true
  | any => true
  | groupElement => true
  | sigmaProp => true
  | box => true
  | avlTree => true
  | context => true
  | bool => true
  | header => true
  | preHeader => true
  | global => true
  | _ => false

/-- Inner loop of `unify_many`, `type_unify.rs:31-41`: insert the entries of one substitution, failing on a conflict. -/
def mergeInto (res : Subst) : Subst → Option Subst
  | [] => some res
  | (k, t) :: m =>
    match res.get k with
    | some prev => if beq prev t then mergeInto (res.insert k t) m else none
    | none => mergeInto (res.insert k t) m

/-- Outer loop of `unify_many`, `type_unify.rs:29-43`. -/
def mergeAll (res : Subst) : List Subst → Option Subst
  | [] => some res
  | s :: l => do
    let res' ← mergeInto res s
    mergeAll res' l

mutual
/-- `unify_one`, `type_unify.rs:52-76`; the tuple and function arms contain the inlined call of `unify_many`
(lines 14-44), whose pairwise part is `unifyPairs`.  For functions the compared lists are `t_dom_plus_range`
(`sfunc.rs:60-64`). -/
def unifyOne (t1 t2 : SType) : Option Subst :=
  match t1 with
  | typeVar a =>
    match t2 with
    | typeVar b => if a = b then some [] else none
    | t2 => some [(a, t2)]
  | coll e1 =>
    match t2 with
    | coll e2 => unifyOne e1 e2
    | tuple _ => unifyOne e1 any
    | _ => none
  | tuple l1 =>
    match t2 with
    | tuple l2 =>
      if l1.length = l2.length then (unifyPairs l1 l2).bind (mergeAll []) else none
    | _ => none
  | option e1 =>
    match t2 with
    | option e2 => unifyOne e1 e2
    | _ => none
  | func d1 r1 _ =>
    match t2 with
    | func d2 r2 _ =>
      if d1.length + 1 = d2.length + 1 then do
        let ss ← unifyPairs d1 d2
        let s ← unifyOne r1 r2
        mergeAll [] (ss ++ [s])
      else none
    | _ => none
  | any => some []
  | bool =>
    match t2 with
    | bool => some []
    | sigmaProp => some []
    | _ => none
  | t1 => if isPrim t1 && isPrim t2 && beq t1 t2 then some [] else none
/-- `items1.iter().zip(items2).map(|(t1, t2)| unify_one(t1, &t2)).collect()`, `type_unify.rs:24-28`. -/
def unifyPairs : List SType → List SType → Option (List Subst)
  | a :: l, b :: l' => do
    let s ← unifyOne a b
    let ss ← unifyPairs l l'
    pure (s :: ss)
  | [], _ => some []
  | _ :: _, [] => some []
end

/-- `unify_many`, `type_unify.rs:14-44`. -/
def unifyMany (l1 l2 : List SType) : Option Subst :=
  if l1.length ≠ l2.length then none else (unifyPairs l1 l2).bind (mergeAll [])

mutual
/-- `SType::with_subst`, `stype.rs:100-109`; functions: `sfunc.rs:42-57` (parameters that are substituted disappear
from the parameter list). -/
def withSubst (s : Subst) : SType → SType
  | typeVar n => (s.get n).getD (typeVar n)
  | option t => option (withSubst s t)
  | coll t => coll (withSubst s t)
  | tuple l => tuple (withSubsts s l)
  | func d r p => func (withSubsts s d) (withSubst s r) (p.filter fun v => !s.contains v)
  | t => t
/-- List part of `withSubst`, `stype.rs:100-109`. -/
def withSubsts (s : Subst) : List SType → List SType
  | [] => []
  | t :: l => withSubst s t :: withSubsts s l
end

end SType
end Verif
