import Verif.Proofs.Reader
import Verif.Proofs.ErgoTree
import Verif.Props.ErgoTree
import Verif.Props.Typing
set_option linter.unusedSimpArgs false
set_option linter.unusedVariables false

/-!
# C73: what a reader of scripts enforces
-/

namespace Verif
open Spec Expr
variable {G B T : Type} [DecidableEq G]

omit [DecidableEq G] in
/-- C73: the test made when an operator is read is exactly the rule on the types of its operands. -/
theorem C73_operands (o : SOp) (ts : List SType) (hl : ts.length = o.arity) : o.check ts = true ↔ OpRule o ts := check_iff o ts hl

example : OpRule .map [.coll .box, .func [.box] .long []] ∧ ¬ OpRule .map [.coll .box, .func [.int] .long []] ∧
    ¬ OpRule .longToByteArray [.int] := by
  refine ⟨.map _ _ _ _ (.value _ rfl), ?_, ?_⟩
  · rw [← C73_operands _ _ rfl]; decide
  · rw [← C73_operands _ _ rfl]; decide

/-- C73: every node of a script that was read obeys the rules: constants are well typed, placeholders are left only by a reader that keeps
them and stand for a constant of their type, operands have the types the operator wants, a field is selected from a tuple that has
it (counting from one), a function is applied to arguments of its parameter types, a method is in the table and is given operands of its
declared types for some choice of its type variables, tuples and sigma conjunctions have 2 to 255 items. -/
theorem C73_accepted (E : Sers G B T) {bwf : B → Prop} (hb : BoxParsed E.bc bwf) (R : Reader G B)
    (hc : R.subst = true → ∀ c ∈ R.consts, GoodConst E.utf8 bwf c) (st st' : TStore) (s r : Bytes) (e : Expr G B)
    (h : Expr.parse E R st s = some ((e, st'), r)) : Everywhere (NodeRule E.utf8 bwf R) e := by
  cases hs : R.subst with
  | true =>
    obtain ⟨hg, _⟩ := parsed_good_subst E hb R hs (hc hs) st _ _ _ h
    exact good_everywhere (R := R) (R' := { R with consts := [] }) rfl (fun i c hi => by cases hi) e st hg
  | false =>
    obtain ⟨hg, _⟩ := parsed_good_expr E hb R hc st _ _ _ h
    exact good_everywhere (R' := R) rfl (fun i c hi => ⟨hs, hi⟩) e st hg

/-- `OUTPUTS(0).tokens.size`-like access and a call of a method are read and obey the rules: `(1, 2)._2`. -/
example : Expr.parse toySers (treeReader [] noMethods) [] [140, 134, 2, 4, 2, 4, 4, 2] =
    some ((.selectField (.tuple [.const (intConst 1), .const (intConst 2)]) 2, []), []) := by with_unfolding_all rfl

/-- Field zero and field three of a pair are refused, and so is the application of a function to an argument of another type. -/
example : Expr.parse toySers (treeReader [] noMethods) [] [140, 134, 2, 4, 2, 4, 4, 0] = none ∧
    Expr.parse toySers (treeReader [] noMethods) [] [140, 134, 2, 4, 2, 4, 4, 3] = none ∧
    Expr.parse toySers (treeReader [] noMethods) [] [218, 217, 1, 1, 4, 114, 1, 1, 1, 1] = none :=
  ⟨by with_unfolding_all rfl, by with_unfolding_all rfl, by with_unfolding_all rfl⟩

/-- C73 (partial): a script that was read is typed, if it satisfies what the reader leaves open: variables are used in their scope and
not bound twice on a path, functions are not data, the operators read without a test and the binary operators have operands of the right
types, the items of a collection have its type, and registers, context variables and code from outside are declared.
What is missing: the reader does not enforce these conditions, see `C73_violation_*`. -/
theorem C73_typed_partial (E : Sers G B T) {D : Decls B} (hb : BoxParsed E.bc D.box) (R : Reader G B) (hM : R.methods = methodTable)
    (hR : R.consts = [] ∨ R.subst = true) (hc : ∀ c ∈ R.consts, GoodConst E.utf8 D.box c) (st' : TStore) (s r : Bytes) (e : Expr G B)
    (h : Expr.parse E R [] s = some ((e, st'), r)) (hS : Scoped [] e) (hF : FirstOrder e) (hD : Everywhere (Residue D) e) :
    Typed D [] e := by
  have key : ∀ R' : Reader G B, R'.methods = methodTable → R'.consts = [] → Good E.utf8 D.box R' e [] → Typed D [] e :=
    fun R' hM' hR' hg => (ready_typed hM' hR' hS [] [] (fun id => Iff.rfl) (fun x hx => by cases hx) (fun x hx => by cases hx) hg hF hD).1
  by_cases hs : R.subst = true
  · exact key { R with consts := [] } hM rfl (parsed_good_subst E hb R hs hc [] _ _ _ h).1
  · have hR' := hR.resolve_right hs
    exact key R hM hR' (parsed_good_expr E hb R (fun _ => hc) [] _ _ _ h).1

/-- C73 (partial): the same for the proposition of a tree read from bytes. -/
theorem C73_tree_partial (E : Sers G B T) {D : Decls B} (hb : BoxParsed E.bc D.box) (bytes : Bytes) (t : ETree G B) (e : Expr G B)
    (ht : ETree.parseBytes E methodTable bytes = some t) (he : t.proposition E methodTable = .ok e) (hS : Scoped [] e)
    (hF : FirstOrder e) (hD : Everywhere (Residue D) e) : Typed D [] e := by
  cases t with
  | unparsed b => cases he
  | parsed h C root =>
    have hg : GoodTree E D.box methodTable (.parsed h C root) := by
      unfold ETree.parseBytes at ht
      split at ht
      · cases ht
      · next h' r hh =>
        have hgh : GoodHeader h' := by
          refine (Post.bind Post.top (fun b _ => ?_) : Post GoodHeader (getU8 >>= fun b => Parser.ofOption (TreeHeader.new b))) _ _ _ hh
          exact Post.ofOption (fun h hh => TreeHeader.new_good hh)
        split at ht
        · split at ht
          · cases ht
          · split at ht
            · split at ht
              · next x hx =>
                simp only [Option.some.injEq] at ht
                exact ht ▸ ETree.post_body E hb methodTable h' hgh _ x.1 x.2 hx
              · cases ht
            · cases ht
        · split at ht
          · next x hx =>
            split at ht
            · simp only [Option.some.injEq] at ht
              exact ht ▸ ETree.post_body E hb methodTable h' hgh _ x.1 x.2 hx
            · cases ht
          · cases ht
    obtain ⟨_, h1, _, h3, h4⟩ := hg
    cases hseg : h.seg with
    | true =>
      simp only [ETree.proposition, hseg, if_true] at he
      cases hx : Expr.ser E root (some []) with
      | ok x =>
        rw [hx] at he
        simp only [Outcome.bind_ok] at he
        split at he
        · next y hy =>
          cases he
          obtain ⟨⟨e, st'⟩, r⟩ := y
          exact C73_typed_partial E hb { consts := C, subst := true, methods := methodTable } rfl (.inr rfl) h3 st' _ r e hy hS hF hD
        · cases he
      | err => rw [hx] at he; cases he
      | panic => rw [hx] at he; cases he
    | false =>
      simp only [ETree.proposition, hseg] at he
      cases he
      exact (ready_typed (R := treeReader C methodTable) rfl (h1 hseg) hS [] [] (fun id => Iff.rfl) (fun x hx => by cases hx)
        (fun x hx => by cases hx) h4 hF hD).1

/-- The script of the example, `{ val x = HEIGHT + 3; x > 5 }`, meets the conditions. -/
example : ∃ e st', Expr.parse toySers ({ consts := [], subst := false, methods := methodTable } : Reader (Fin 3) Empty) []
      [216, 1, 214, 1, 154, 163, 4, 6, 145, 114, 1, 4, 10] = some ((e, st'), []) ∧ Scoped [] e ∧ FirstOrder e ∧
      Everywhere (Residue ⟨fun _ => True, fun _ _ => False, fun _ _ => False, fun _ _ => False, fun _ _ => False⟩) e := by
  refine ⟨exprExample, _, by with_unfolding_all rfl, ?_, ?_, ?_⟩
  · refine Scoped.block [] [(1, .bin .plus (.op .height []) (.const (intConst 3)))] _ ?_ ?_ ?_
    · intro pre d post e
      cases pre with
      | nil =>
        simp only [List.nil_append, List.cons.injEq] at e
        obtain ⟨rfl, rfl⟩ := e
        refine .other _ _ trivial fun c hc => ?_
        simp only [children, List.mem_cons, List.not_mem_nil, or_false] at hc
        rcases hc with rfl | rfl
        · exact .other _ _ trivial fun c hc => by cases hc
        · exact .other _ _ trivial fun c hc => by cases hc
      | cons a l => simp at e
    · intro pre d post e
      cases pre with
      | nil => simp
      | cons a l => simp at e
    · refine .other _ _ trivial fun c hc => ?_
      simp only [children, List.mem_cons, List.not_mem_nil, or_false] at hc
      rcases hc with rfl | rfl
      · exact .use _ _ _ (by simp)
      · exact .other _ _ trivial fun c hc => by cases hc
  · refine .mk ⟨by simp [exprExample, valueParts, isFuncTy, tpe, BinK.resTpe], by simp [exprExample, isFuncTy, tpe, BinK.resTpe]⟩ fun c hc => ?_
    simp only [exprExample, children, List.mem_cons, List.not_mem_nil, or_false] at hc
    rcases hc with rfl | rfl
    · refine .mk ⟨by simp [valueParts, isFuncTy, tpe, intConst], by simp [isFuncTy, tpe, BinK.resTpe]⟩ fun c hc => ?_
      simp only [children, List.mem_cons, List.not_mem_nil, or_false] at hc
      rcases hc with rfl | rfl
      · exact .mk ⟨by simp [valueParts], by simp [isFuncTy, tpe]⟩ fun c hc => by cases hc
      · exact .mk ⟨by simp [valueParts], by simp [isFuncTy, tpe, intConst]⟩ fun c hc => by cases hc
    · refine .mk ⟨by simp [valueParts], by simp [isFuncTy, tpe, BinK.resTpe, SOp.resTpe]⟩ fun c hc => ?_
      simp only [children, List.mem_cons, List.not_mem_nil, or_false] at hc
      subst hc
      refine .mk ⟨by simp [valueParts, isFuncTy, tpe, intConst, SOp.resTpe], by simp [isFuncTy, tpe, BinK.resTpe, SOp.resTpe]⟩ fun c hc => ?_
      simp only [children, List.mem_cons, List.not_mem_nil, or_false] at hc
      rcases hc with rfl | rfl
      · exact .mk ⟨by simp [valueParts], by simp [isFuncTy, tpe, SOp.resTpe]⟩ fun c hc => by cases hc
      · exact .mk ⟨by simp [valueParts], by simp [isFuncTy, tpe, intConst]⟩ fun c hc => by cases hc
  · refine .mk (by simp [exprExample, Residue, tpe, BinK.resTpe, NoFunc]) fun c hc => ?_
    simp only [exprExample, children, List.mem_cons, List.not_mem_nil, or_false] at hc
    rcases hc with rfl | rfl
    · refine .mk (.number _ .int (by simp)) fun c hc => ?_
      simp only [children, List.mem_cons, List.not_mem_nil, or_false] at hc
      rcases hc with rfl | rfl
      · exact .mk trivial fun c hc => by cases hc
      · exact .mk trivial fun c hc => by cases hc
    · refine .mk trivial fun c hc => ?_
      simp only [children, List.mem_cons, List.not_mem_nil, or_false] at hc
      subst hc
      refine .mk (.number _ .int (by simp)) fun c hc => ?_
      simp only [children, List.mem_cons, List.not_mem_nil, or_false] at hc
      rcases hc with rfl | rfl
      · exact .mk (fun _ => .height) fun c hc => by cases hc
      · exact .mk trivial fun c hc => by cases hc

/-! ## What the reader leaves open -/

section
variable [DecidableEq B] [DecidableEq (Value G B)] (W : World G B T) (C : EvalCtx G B)

/-- `if (false) true else 5`. -/
def ifScript : Expr G B := .op .ifOp [.const ⟨.bool, .bool false⟩, .const ⟨.bool, .bool true⟩, .const ⟨.int, .int 5⟩]

/-- Finding: the branches of a condition may have different types; the script is read with the type `Boolean` and its value is an `Int`. -/
theorem C73_violation_if (n : Nat) :
    Expr.parse toySers (treeReader [] noMethods) [] [149, 1, 0, 1, 1, 4, 10] = some ((ifScript, []), []) ∧
    (ifScript : Expr G B).tpe = .bool ∧
    ∃ s, eval W { C with limit := none } (n + 2) ifScript { env := [], cost := 0 } = .ok (.int 5, s) :=
  ⟨by with_unfolding_all rfl, rfl, _, rfl⟩

/-- `Coll[Int](true)`. -/
def itemsScript : Expr G B := .coll .int [.const ⟨.bool, .bool true⟩]

/-- Finding: the items of a collection may have another type; the script is read as a `Coll[Int]` and its value has a Boolean item. -/
theorem C73_violation_items (n : Nat) :
    Expr.parse toySers (treeReader [] noMethods) [] [131, 1, 4, 1, 1] = some ((itemsScript, []), []) ∧
    (itemsScript : Expr G B).tpe = .coll .int ∧
    (∃ s, eval W { C with limit := none } (n + 2) itemsScript { env := [], cost := 0 } = .ok (.coll .int [.bool true], s)) ∧ ∀ D : Decls B, ¬ Typed D [] (itemsScript : Expr G B) := by
  refine ⟨by with_unfolding_all rfl, rfl, ⟨_, rfl⟩, fun D h => ?_⟩
  cases h with
  | coll _ _ _ _ h => have := h (.const ⟨.bool, .bool true⟩) (List.mem_cons_self ..); cases this

/-- `!((x: Int) => true)`. -/
def notScript : Expr G B := .op .logicalNot [.func [(1, .int)] (.const ⟨.bool, .bool true⟩)]

/-- Finding: where a Boolean is wanted, a function with a Boolean result is accepted; its evaluation fails. -/
theorem C73_violation_function (n : Nat) :
    Expr.parse toySers (treeReader [] noMethods) [] [239, 217, 1, 1, 4, 1, 1] = some ((notScript, [(1, .int)]), []) ∧
    eval W { C with limit := none } (n + 2) notScript { env := [], cost := 0 } = .err .tryExtract :=
  ⟨by with_unfolding_all rfl, rfl⟩

/-- `{ val z = 0; val x = { val y = 1; y }; y }`. -/
def scopeScript : Expr G B :=
  .block [.valDef 3 (.const ⟨.int, .int 0⟩), .valDef 1 (.block [.valDef 2 (.const ⟨.int, .int 1⟩)] (.valUse 2 .int))] (.valUse 2 .int)

/-- Finding: a variable may be used outside the block that defines it; the script is read, and its evaluation fails. -/
theorem C73_violation_scope (n : Nat) :
    Expr.parse toySers (treeReader [] noMethods) [] [216, 2, 214, 3, 4, 0, 214, 1, 216, 1, 214, 2, 4, 2, 114, 2, 114, 2] =
      some ((scopeScript, [(3, .int), (2, .int), (1, .int)]), []) ∧
    eval W { C with limit := none } (n + 4) scopeScript { env := [], cost := 0 } = .err .notFound := by
  refine ⟨by with_unfolding_all rfl, ?_⟩
  rfl

end

/-- Finding: any nonzero byte marks an optional operand as present, so one script has many byte forms. -/
theorem C73_violation_option_flag (E : Sers G B T) (R : Reader G B) (st : TStore) (x flag : Byte) (hf : flag ≠ 0) (tb rest : Bytes) (t : SType)
    (ht : ∀ r, SType.parse E.utf8 (tb ++ r) = some (t, r)) :
    Expr.parse E R st (213 :: x :: (tb ++ flag :: rest)) = Expr.parse E R st (213 :: x :: (tb ++ 1 :: rest)) := by
  have h : ∀ f : Byte, f ≠ 0 → ∀ n, parseFuel E R (n + 1) (st, 213) (x :: (tb ++ f :: rest)) =
      (withTag (parseFuel E R n) st >>= fun a => pure (Expr.deserReg x t [a.1], a.2) : Parser _) rest := by
    intro f hf n
    show (getU8 >>= fun y => SType.parse E.utf8 >>= fun t => parseOpt (withTag (parseFuel E R n)) st >>= fun d =>
      pure (Expr.deserReg y t d.1, d.2) : Parser _) (x :: (tb ++ f :: rest)) = _
    rw [Parser.bind_some (getU8_cons _ _), Parser.bind_some (ht _)]
    have hp : parseOpt (withTag (parseFuel E R n)) st (f :: rest) =
        (withTag (parseFuel E R n) st >>= fun a => pure ([a.1], a.2) : Parser _) rest := by
      unfold parseOpt
      rw [Parser.bind_some (getU8_cons _ _), if_pos hf]
    cases hq : withTag (parseFuel E R n) st rest with
    | none => rw [Parser.bind_none hq] at hp ⊢; rw [Parser.bind_none hp]
    | some a => rw [Parser.bind_some hq] at hp ⊢; rw [Parser.bind_some hp]
  show parseWith E R (st, 213) (x :: (tb ++ flag :: rest)) = parseWith E R (st, 213) (x :: (tb ++ 1 :: rest))
  unfold parseWith
  rw [h flag hf, h 1 (by decide)]
  simp

/-- `executeFromSelfReg[Int](R4, 1)` with the flag byte 7. -/
example (r : Bytes) : SType.parse toySers.utf8 ([4] ++ r) = some (.int, r) ∧
    Expr.parse toySers (treeReader [] noMethods) [] [213, 4, 4, 7, 4, 2] = some ((.deserReg 4 .int [.const (intConst 1)], []), []) :=
  ⟨by with_unfolding_all rfl, by with_unfolding_all rfl⟩

end Verif
