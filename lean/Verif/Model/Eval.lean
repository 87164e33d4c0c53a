import Verif.Model.EvalOps
import Verif.Model.Printer

/-!
# The script interpreter

Source: `ergotree-interpreter/src/eval.rs`, `ergotree-interpreter/src/eval/*.rs`.

Rust's `Expr::eval` is recursive without a bound (a lambda can be made to call itself).  `eval n` is the same function with a budget
of `n` nested calls; `Res.out` says that the budget was too small.  `step` is the body of `Expr::eval` with the recursive calls as
a parameter.
-/

namespace Verif
variable {G B T : Type}

/-- An evaluation routine for expressions, `Evaluable::eval`, `ergotree-interpreter/src/eval.rs:213`. -/
abbrev Ev (G B : Type) := Expr G B → EvalM G B (Value G B)

/-- `CostAccumulator::add`, `eval/cost_accum.rs:32-40`; every cost is 1 (`eval/costs.rs:19-21`). -/
def addCost (limit : Option Nat) : EvalM G B Unit := fun s =>
  match limit with
  | some L => if s.cost + 1 > L then .err .cost else .ok ((), { s with cost := s.cost + 1 })
  | none => .ok ((), { s with cost := s.cost + 1 })

/-- `env.get(id).cloned().ok_or_else(..)`, `eval/val_use.rs:9-15`. -/
def useVar (id : BitVec 32) : EvalM G B (Value G B) := fun s =>
  match s.env.get id with
  | some v => .ok (v, s)
  | none => .err .notFound

/-- `iter().map(|e| e.eval(env, ctx)).collect::<Result<Vec<_>, _>>()`, e.g. `ergotree-interpreter/src/eval/collection.rs:1`. -/
def evalAll (ev : Ev G B) : List (Expr G B) → EvalM G B (List (Value G B))
  | [] => pure []
  | e :: l => do
    let v ← ev e
    let vs ← evalAll ev l
    pure (v :: vs)

/-- `e.eval(env, ctx)?.try_extract_into::<α>()?`, e.g. `ergotree-interpreter/src/eval/coll_by_index.rs:25`. -/
def evalAs {α : Type} (ev : Ev G B) (f : Value G B → Res α) (e : Expr G B) : EvalM G B α := do
  let v ← ev e
  EvalM.lift (f v)

/-- The body of a lambda call: save the variable, set it, run, restore it, `eval/coll_map.rs:22-30` and the same lines in
`coll_filter.rs`, `coll_fold.rs`, `coll_exists.rs`, `coll_forall.rs`, `scoll.rs:78-86`, `soption.rs:26-34, 68-76`. -/
def withArg {α : Type} (id : BitVec 32) (arg : Value G B) (m : EvalM G B α) : EvalM G B α := fun s =>
  match m { s with env := s.env.insert id arg } with
  | .ok (a, s') =>
    .ok (a, { s' with env := match s.env.get id with
                              | some old => s'.env.insert id old
                              | none => s'.env.erase id })
  | .err e => .err e
  | .panic => .panic
  | .out => .out

/-- `mapper_call` and its like: `coll_map.rs:15-36`, `coll_filter.rs:16-37`, `coll_fold.rs:17-37`, `coll_exists.rs:15-36`,
`coll_forall.rs:15-36`. -/
def callLam (ev : Ev G B) (f arg : Value G B) : EvalM G B (Value G B) :=
  match f with
  | .lam ((id, _) :: _) body => withArg id arg (ev body)
  | .lam [] _ => EvalM.fail .notFound
  | _ => EvalM.fail .unexpectedValue

/-- The calls for all items, `coll_map.rs:63-66`. -/
def callEach (ev : Ev G B) (f : Value G B) : List (Value G B) → EvalM G B (List (Value G B))
  | [] => pure []
  | x :: l => do
    let v ← callLam ev f x
    let vs ← callEach ev f l
    pure (v :: vs)

/-- The conditions of all items, `coll_filter.rs:55-64`. -/
def callConds (ev : Ev G B) (f : Value G B) : List (Value G B) → EvalM G B (List Bool)
  | [] => pure []
  | x :: l => do
    let v ← callLam ev f x
    let b ← EvalM.lift v.asBool
    let bs ← callConds ev f l
    pure (b :: bs)

/-- The loop of `Exists`, `coll_exists.rs:54-60`. -/
def callAny (ev : Ev G B) (f : Value G B) : List (Value G B) → EvalM G B Bool
  | [] => pure false
  | x :: l => do
    let v ← callLam ev f x
    let b ← EvalM.lift v.asBool
    if b then pure true else callAny ev f l

/-- The loop of `ForAll`, `coll_forall.rs:54-60`. -/
def callForAll (ev : Ev G B) (f : Value G B) : List (Value G B) → EvalM G B Bool
  | [] => pure true
  | x :: l => do
    let v ← callLam ev f x
    let b ← EvalM.lift v.asBool
    if b then callForAll ev f l else pure false

/-- `try_fold`, `coll_fold.rs:41-52`. -/
def callFold (ev : Ev G B) (f : Value G B) : Value G B → List (Value G B) → EvalM G B (Value G B)
  | acc, [] => pure acc
  | acc, x :: l => do
    let v ← callLam ev f (.tup [acc, x])
    callFold ev f v l

/-- `existing_variables` and `new_variables`, `eval/block.rs:30-31`, `eval/apply.rs:20-21`. -/
structure Saved (G B : Type) where
  existing : FMap (BitVec 32) (Value G B)
  news : List (BitVec 32)

/-- Remember what a variable was, `eval/block.rs:39-43`, `eval/apply.rs:23-27`. -/
def Saved.note (sv : Saved G B) (env : FMap (BitVec 32) (Value G B)) (id : BitVec 32) : Saved G B :=
  match env.get id with
  | some old => { sv with existing := sv.existing.insert id old }
  | none => { sv with news := sv.news ++ [id] }

/-- Undo the bindings, `eval/block.rs:47-54`, `eval/apply.rs:31-38` (`existing_variables` has distinct keys, so the order of
the `HashMap` does not matter). -/
def Saved.restore (sv : Saved G B) (env : FMap (BitVec 32) (Value G B)) : FMap (BitVec 32) (Value G B) :=
  sv.existing.foldl (fun m p => m.insert p.1 p.2) (sv.news.foldl (fun m id => m.erase id) env)

/-- The `ValDef`s of a block at the top level, `eval/block.rs:20-26`. -/
def blockTop (ev : Ev G B) : List (Expr G B) → EvalM G B Unit
  | [] => pure ()
  | .valDef id rhs :: l => do
    let v ← ev rhs
    (fun s => .ok ((), { s with env := s.env.insert id v }) : EvalM G B Unit)
    blockTop ev l
  | _ :: _ => EvalM.fail .tryExtract

/-- The `ValDef`s of any other block, `eval/block.rs:33-45`. -/
def blockInner (ev : Ev G B) : List (Expr G B) → Saved G B → EvalM G B (Saved G B)
  | [], sv => pure sv
  | .valDef id rhs :: l, sv => do
    let v ← ev rhs
    let sv' ← (fun s => .ok (sv.note s.env id, { s with env := s.env.insert id v }) : EvalM G B (Saved G B))
    blockInner ev l sv'
  | _ :: _, _ => EvalM.fail .tryExtract

/-- `env.is_empty()`, `eval/block.rs:17`. -/
def envIsEmpty : EvalM G B Bool := fun s => .ok (s.env.isEmpty, s)

/-- The restoring end of a block or a call, `ergotree-interpreter/src/eval/block.rs:47-55`, `ergotree-interpreter/src/eval/apply.rs:30-39`.
-/
def restoreEnv (sv : Saved G B) : EvalM G B Unit := fun s => .ok ((), { s with env := sv.restore s.env })

/-- `BlockValue`, `eval/block.rs:13-58`. -/
def evalBlock (ev : Ev G B) (items : List (Expr G B)) (result : Expr G B) : EvalM G B (Value G B) := do
  let top ← envIsEmpty
  if top then do
    blockTop ev items
    ev result
  else do
    let sv ← blockInner ev items { existing := [], news := [] }
    let v ← ev result
    restoreEnv sv
    pure v

/-- The binding of the arguments, `eval/apply.rs:22-29`; `zip` drops what is too much. -/
def bindArgs : List (BitVec 32 × Value G B) → Saved G B → EvalM G B (Saved G B)
  | [], sv => pure sv
  | (id, v) :: l, sv => do
    let sv' ← (fun s => .ok (sv.note s.env id, { s with env := s.env.insert id v }) : EvalM G B (Saved G B))
    bindArgs l sv'

/-- The match of `Apply`, `eval/apply.rs:17-46`. -/
def applyLam (ev : Ev G B) (f : Value G B) (args : List (Value G B)) : EvalM G B (Value G B) :=
  match f with
  | .lam params body => do
    let sv ← bindArgs ((params.map Prod.fst).zip args) { existing := [], news := [] }
    let v ← ev body
    restoreEnv sv
    pure v
  | _ => EvalM.fail .unexpectedValue

/-- The element type against which `Filter`, `Exists` and `ForAll` check their input (`mir/coll_filter.rs:30-33`). -/
def collElem : SType → SType
  | .coll t => t
  | _ => .any

/-- The check of the input of the collection nodes, `coll_filter.rs:38-53`, `coll_map.rs:47-62`. -/
def itemsOf (elem : SType) (v : Value G B) : Res (List (Value G B)) := do
  let c ← v.asColl
  if c.1.beq elem then pure c.2 else .err .unexpectedValue

/-- The bodies `Coll.flatMap` accepts, `scoll.rs:61-73`. -/
def flatMapBody : Expr G B → Bool
  | .method _ _ _ _ args => args.isEmpty
  | .op .extractScriptBytes _ => true
  | .op .extractId _ => true
  | .op .sigmaPropBytes _ => true
  | .op .extractBytes _ => true
  | .op .extractBytesWithNoRef _ => true
  | _ => false

/-- `Coll.flatMap`, `scoll.rs:39-123`. -/
def flatMapMethod (ev : Ev G B) (obj : Value G B) (args : List (Value G B)) : EvalM G B (Value G B) := do
  let f ← EvalM.lift (Value.argOf .notFound 0 args)
  match f with
  | .lam params body =>
    if 1 < params.length then EvalM.fail .unexpectedValue
    else if flatMapBody body then
      match params with
      | [] => EvalM.fail .notFound
      | p :: _ => do
        let items ← EvalM.lift (itemsOf p.2 obj)
        let vs ← callEach ev f items
        EvalM.lift (Value.fromVecVec body.tpe vs)
    else EvalM.fail .unexpectedValue
  | _ => EvalM.fail .unexpectedValue

/-- `Option.map`, `soption.rs:8-48`. -/
def optionMapMethod (ev : Ev G B) (obj : Value G B) (args : List (Value G B)) : EvalM G B (Value G B) := do
  let f ← EvalM.lift (Value.argOf .notFound 0 args)
  match f with
  | .lam _ _ =>
    match obj with
    | .some x => do
      let v ← callLam ev f x
      pure (.some v)
    | .none => pure .none
    | _ => EvalM.fail .unexpectedValue
  | _ => EvalM.fail .unexpectedValue

/-- `Option.filter`, `soption.rs:50-99`. -/
def optionFilterMethod (ev : Ev G B) (obj : Value G B) (args : List (Value G B)) : EvalM G B (Value G B) := do
  let f ← EvalM.lift (Value.argOf .notFound 0 args)
  match f with
  | .lam _ _ =>
    match obj with
    | .some x => do
      let v ← callLam ev f x
      match v with
      | .bool b => pure (if b then .some x else .none)
      | _ => EvalM.fail .unexpectedValue
    | .none => pure .none
    | _ => EvalM.fail .unexpectedValue
  | _ => EvalM.fail .unexpectedValue

section
variable [DecidableEq G] [DecidableEq B] [DecidableEq (Value G B)] (W : World G B T) (C : EvalCtx G B)

/-- `smethod_eval_fn(&self.method)?(env, ectx, ov, argsv?)`, `method_call.rs:15`, `eval.rs:219-363`.  Simplification: for a method
without an evaluation function the error of an argument comes before `NotFound`. -/
def callMethod (ev : Ev G B) (typeId methodId : Byte) (obj : Value G B) (args : List (Value G B)) : EvalM G B (Value G B) :=
  if typeId = 12 ∧ methodId = 15 then flatMapMethod ev obj args
  else if typeId = 36 ∧ methodId = 7 then optionMapMethod ev obj args
  else if typeId = 36 ∧ methodId = 8 then optionFilterMethod ev obj args
  else EvalM.lift (Value.pureMethod W C typeId.toNat methodId.toNat obj args)

/-- `Expr::sigma_parse_bytes` in `DeserializeContext` and `DeserializeRegister`, `deserialize_context.rs:24-28`,
`deserialize_register.rs:29-34`: the constant must be a byte collection with the bytes of an expression of type `tpe`. -/
def deserialize (tpe : SType) (c : Constant G B) : Res (Expr G B) :=
  if c.tpe.beq .collByte then do
    let b ← (Value.ofLiteral c.v).asBytes
    match Expr.parse W.E { consts := [], subst := false, methods := W.M } [] b with
    | some x => if x.1.1.tpe.beq tpe then .ok x.1.1 else .err .unexpectedExpr
    | none => .err .sigmaParsing
  else .err .unexpectedExpr

/-- `eval_default` and the missing default, `deserialize_register.rs:39-50, 55-70`. -/
def defaultExpr (tpe : SType) : List (Expr G B) → Res (Expr G B)
  | d :: _ => if d.tpe.beq tpe then .ok d else .err .unexpectedExpr
  | [] => .err .notFound

/-- What `DeserializeRegister` evaluates, `deserialize_register.rs:17-51`. -/
def registerExpr (reg : Byte) (tpe : SType) (default : List (Expr G B)) : Res (Expr G B) := do
  let id ← RegId.ofI8 reg
  match getRegister W.box C.selfBox id with
  | .ok (some c) => deserialize W tpe c
  | .panic => .panic
  | _ => defaultExpr tpe default

/-- What `DeserializeContext` evaluates, `deserialize_context.rs:15-36`. -/
def contextExpr (tpe : SType) (id : Byte) : Res (Expr G B) :=
  match C.extension.get id with
  | some c => deserialize W tpe c
  | none => .err .notFound

/-- `BinOp`, `bin_op.rs:173-320`. -/
def evalBin (ev : Ev G B) (k : BinK) (l r : Expr G B) : EvalM G B (Value G B) := do
  addCost C.limit
  let lv ← ev l
  match k with
  | .and => do
    let b ← EvalM.lift lv.asBool
    if b then do
      let c ← evalAs ev Value.asBool r
      pure (.bool c)
    else pure (.bool false)
  | .or => do
    let b ← EvalM.lift lv.asBool
    if b then pure (.bool true)
    else do
      let c ← evalAs ev Value.asBool r
      pure (.bool c)
  | .xor => do
    let b ← EvalM.lift lv.asBool
    let c ← evalAs ev Value.asBool r
    pure (.bool (b ^^ c))
  | .eq => do
    let rv ← ev r
    pure (.bool (decide (lv = rv)))
  | .neq => do
    let rv ← ev r
    pure (.bool (!decide (lv = rv)))
  | .gt | .lt | .ge | .le => do
    let rv ← ev r
    EvalM.lift (lv.binNum k rv)
  | _ =>
    match lv.leftNum k with
    | some f => evalAs ev f r
    | none => EvalM.fail .unexpectedValue

/-- The nodes with a fixed number of operands: those that do not evaluate all operands first, then the rest (`strictOp`).
`if_op.rs:10-19`, `coll_map.rs:10-73`, `coll_filter.rs:11-76`, `coll_exists.rs:10-62`, `coll_forall.rs:10-62`,
`coll_fold.rs:11-60`, `tree_lookup.rs:16-57`, `create_prove_dh_tuple.rs:12-20`. -/
def evalOp (ev : Ev G B) (o : SOp) (args : List (Expr G B)) : EvalM G B (Value G B) :=
  match o, args with
  | .ifOp, [c, t, e] => do
    let b ← evalAs ev Value.asBool c
    if b then ev t else ev e
  | .map, [input, mapper] => do
    let iv ← ev input
    let f ← ev mapper
    match mapper.tpe with
    | .func (d :: _) range _ => do
      let items ← EvalM.lift (itemsOf d iv)
      let vs ← callEach ev f items
      EvalM.lift (Value.fromVec range vs)
    | _ => EvalM.fail .notFound
  | .filter, [input, cond] => do
    let iv ← ev input
    let f ← ev cond
    let items ← EvalM.lift (itemsOf (collElem input.tpe.postEval) iv)
    let bs ← callConds ev f items
    EvalM.lift (Value.fromVec (collElem input.tpe.postEval) (((items.zip bs).filter fun p => p.2).map Prod.fst))
  | .anyOf, [input, cond] => do
    let iv ← ev input
    let f ← ev cond
    let items ← EvalM.lift (itemsOf (collElem input.tpe.postEval) iv)
    let b ← callAny ev f items
    pure (.bool b)
  | .forAll, [input, cond] => do
    let iv ← ev input
    let f ← ev cond
    let items ← EvalM.lift (itemsOf (collElem input.tpe.postEval) iv)
    let b ← callForAll ev f items
    pure (.bool b)
  | .fold, [input, zero, op] => do
    let iv ← ev input
    let z ← ev zero
    let f ← ev op
    let c ← EvalM.lift iv.asColl
    callFold ev f z c.2
  | .treeLookup, [tree, key, proof] => do
    let t ← evalAs ev Value.asAvl tree
    let k ← evalAs ev Value.asBytes key
    let p ← evalAs ev Value.asBytes proof
    let r ← EvalM.lift (Value.avlLookup W t k p)
    pure (Value.ofOption (r.map .collByte))
  | .createProveDhTuple, [eg, eh, eu, e] => do
    let g ← evalAs ev Value.asPoint eg
    let h ← evalAs ev Value.asPoint eh
    let u ← evalAs ev Value.asPoint eu
    let v ← evalAs ev Value.asPoint e
    pure (.sigmaProp (.dht g h u v))
  | o, args => do
    let vs ← evalAll ev args
    EvalM.lift (Value.strictOp W C o vs)

/-- The body of `Expr::eval` after the cost is counted, `eval/expr.rs:16-87`, with `collection.rs:14-37`, `tuple.rs:9-14`,
`select_field.rs:9-28`, `upcast.rs:71-86`, `downcast.rs:106-121`, `extract_reg_as.rs:14-33`, `get_var.rs:10-22`,
`deserialize_context.rs:13-38`, `deserialize_register.rs:16-70`, `coll_by_index.rs:10-41`, `create_avl_tree.rs:13-35`,
`sigma_and.rs:12-22`, `sigma_or.rs:12-22`, `func_value.rs:10-17`, `apply.rs:11-48`, `method_call.rs:10-17`,
`property_call.rs:10-15`. -/
def step (ev : Ev G B) : Expr G B → EvalM G B (Value G B)
  | .const c => pure (Value.ofLiteral c.v)
  | .placeholder _ _ => EvalM.fail .unexpectedExpr
  | .valUse id _ => useVar id
  | .bools l => pure (.coll .bool (l.map .bool))
  | .op o args => evalOp W C ev o args
  | .bin k l r => evalBin C ev k l r
  | .cast up input t => do
    let v ← ev input
    EvalM.lift (if up then Value.upcast t v else Value.downcast t v)
  | .extractReg input reg _ => do
    let b ← evalAs ev Value.asBox input
    EvalM.lift (Value.regOption W.box b reg)
  | .selectField input index => do
    let v ← ev input
    match v with
    | .tup items => EvalM.lift (Res.ofOption .notFound items[index.toNat - 1]?)
    | _ => EvalM.fail .unexpectedValue
  | .getVar id t =>
    match C.extension.get id with
    | none => pure .none
    | some c => if c.tpe.beq t then pure (.some (Value.ofLiteral c.v)) else EvalM.fail .tryExtract
  | .deserCtx t id => do
    let e ← EvalM.lift (contextExpr W C t id)
    ev e
  | .deserReg reg t default => do
    let e ← EvalM.lift (registerExpr W C reg t default)
    ev e
  | .byIndex input index default => do
    let iv ← ev input
    let ix ← ev index
    let c ← EvalM.lift iv.asColl
    match default with
    | [] => do
      let i ← EvalM.lift ix.asInt
      EvalM.lift (Res.ofOption .misc c.2[usizeOf i]?)
    | d :: _ => do
      let dv ← ev d
      let i ← EvalM.lift ix.asInt
      pure (c.2[usizeOf i]?.getD dv)
  | .createAvl flags digest keyLength valueLength => do
    let f ← evalAs ev Value.asByte flags
    let d ← evalAs ev Value.asBytes digest
    let k ← evalAs ev Value.asInt keyLength
    match valueLength with
    | [] => EvalM.lift (Value.mkAvl f d k none)
    | e :: _ => do
      let v ← evalAs ev Value.asInt e
      EvalM.lift (Value.mkAvl f d k (some v))
  | .coll t items => do
    let vs ← evalAll ev items
    EvalM.lift (Value.fromVec t vs)
  | .tuple items => do
    let vs ← evalAll ev items
    pure (.tup vs)
  | .sigma isAnd items => do
    let vs ← evalAll ev items
    let ps ← EvalM.lift (Res.mapAll Value.asSigma vs)
    let p ← EvalM.lift (Res.ofOutcome .misc
      (if isAnd then SigmaBoolean.candNormalized ps else SigmaBoolean.corNormalized ps))
    pure (.sigmaProp p)
  | .func args body => pure (.lam args body)
  | .apply f args => do
    let fv ← ev f
    let vs ← evalAll ev args
    applyLam ev fv vs
  | .block items result => evalBlock ev items result
  | .valDef _ _ => EvalM.fail .unexpectedExpr
  | .method t m _ obj args => do
    let o ← ev obj
    let vs ← evalAll ev args
    callMethod W C ev t m o vs
  | .property t m _ obj => do
    let o ← ev obj
    callMethod W C ev t m o []

/-- `Expr::eval`, `eval/expr.rs:13-90`, with at most `n` nested calls. -/
def eval : Nat → Ev G B
  | 0, _ => fun _ => .out
  | n + 1, e => do
    addCost C.limit
    step W C (eval n) e

/-- `inner` of `reduce_to_crypto`, `eval.rs:135-161`, with at most `n` nested calls.  `ok none` is the error `InvalidResultType`, the
only one without a span (`Expr::eval` adds one to all others, `eval/expr.rs:88`). -/
def reduceOnce (n : Nat) (e : Expr G B) (env : FMap (BitVec 32) (Value G B)) : Res (Option (SigmaBoolean G)) :=
  match eval W { C with limit := none } n e { env := env, cost := 0 } with
  | .ok (.bool b, _) => .ok (some (.trivial b))
  | .ok (.sigmaProp p, _) => .ok (some p)
  | .ok _ => .ok none
  | .err e => .err e
  | .panic => .panic
  | .out => .out

/-- The second attempt of `reduce_to_crypto`, `eval.rs:182-186`, on the expression the printer rebuilt; an error without a span ends
in the panic of `wrap_spanned_with_src`, `error.rs:167-178`. -/
def reduceAgain (n : Nat) (e : Expr G B) (env : FMap (BitVec 32) (Value G B)) : Res (SigmaBoolean G) :=
  match e.prettyPrint W.mode with
  | .ok e' =>
    match reduceOnce W C n e' env with
    | .ok (some p) => .ok p
    | .ok none => .panic
    | .err r => .err r
    | .panic => .panic
    | .out => .out
  | .err => .err .misc
  | .panic => .panic

/-- `reduce_to_crypto`, `eval.rs:129-187`, with at most `n` nested calls.  The expression is printed after the result `false` and after
an error; after an error it is evaluated a second time.  Simplifications: the diagnostics are left out, and the model has no source
spans (see `Model/Printer.lean`). -/
def reduceToCrypto (n : Nat) (e : Expr G B) (env : FMap (BitVec 32) (Value G B)) : Res (SigmaBoolean G) :=
  match reduceOnce W C n e env with
  | .ok (some (.trivial false)) =>
    match e.prettyPrint W.mode with
    | .ok _ => .ok (.trivial false)
    | .err => .err .misc
    | .panic => .panic
  | .ok (some p) => .ok p
  | .ok none => reduceAgain W C n e env
  | .err _ => reduceAgain W C n e env
  | .panic => .panic
  | .out => .out

end
end Verif
