import Verif.Props.Register
import Verif.Proofs.ErgoTree

set_option linter.unusedVariables false

/-!
# C50 – expressions; C43 – ErgoTrees; C42 – constant segregation and replacement
-/

namespace Verif
open Spec Expr ETree
variable {G B T : Type} [DecidableEq G]

/-! ## C50 -/

/-- C50: writing an expression and reading it back, with anything behind it, returns the expression and all of the bytes
behind it; the reader then knows the variables defined in it. -/
theorem C50_roundtrip (E : Sers G B T) {bwf : B → Prop} (hbox : BoxRoundTrips E.bc bwf) (hb : NonExp E.bc.parse)
    (C : List (Constant G B)) (M : Byte → Byte → Option FuncSig) (e : Expr G B) (st : TStore)
    (hg : Good E.utf8 bwf (treeReader C M) e st) :
    ∃ bs, Expr.ser E e none = .ok (bs, none) ∧
      ∀ rest, Expr.parse E (treeReader C M) st (bs ++ rest) = some ((e, after e st), rest) := by
  obtain ⟨bs, h1, h2⟩ := (expr_rt E hbox hb _ e st hg).parse
  exact ⟨bs, h1, fun rest => by rw [h2, readAs_false rfl]⟩

/-- C50: a reader that substitutes placeholders returns the expression with every placeholder replaced by the constant it
stands for. -/
theorem C50_substituting (E : Sers G B T) {bwf : B → Prop} (hbox : BoxRoundTrips E.bc bwf) (hb : NonExp E.bc.parse)
    (R : Reader G B) (hs : R.subst = true) (e : Expr G B) (st : TStore) (hg : Good E.utf8 bwf R e st) :
    ∃ bs, Expr.ser E e none = .ok (bs, none) ∧
      ∀ rest, Expr.parse E R st (bs ++ rest) = some ((substAll R.consts e, after e st), rest) := by
  obtain ⟨bs, h1, h2⟩ := (expr_rt E hbox hb _ e st hg).parse
  exact ⟨bs, h1, fun rest => by rw [h2, readAs_true hs]⟩

/-- C50: two expressions with the same bytes are equal. -/
theorem C50_injective (E : Sers G B T) {bwf : B → Prop} (hbox : BoxRoundTrips E.bc bwf) (hb : NonExp E.bc.parse)
    (C : List (Constant G B)) (M : Byte → Byte → Option FuncSig) (e e' : Expr G B) (st : TStore)
    (hg : Good E.utf8 bwf (treeReader C M) e st) (hg' : Good E.utf8 bwf (treeReader C M) e' st) (bs : Bytes)
    (h : Expr.ser E e none = .ok (bs, none)) (h' : Expr.ser E e' none = .ok (bs, none)) : e = e' := by
  obtain ⟨b, h1, h2⟩ := C50_roundtrip E hbox hb C M e st hg
  obtain ⟨b', h1', h2'⟩ := C50_roundtrip E hbox hb C M e' st hg'
  rw [h] at h1; cases h1
  rw [h'] at h1'; cases h1'
  have := (h2 []).symm.trans (h2' [])
  simp only [Option.some.injEq, Prod.mk.injEq] at this
  exact this.1.1

/-- C50: whatever is read can be written, and reading the result again returns the same expression and the same known
variables. -/
theorem C50_reread (E : Sers G B T) {bwf : B → Prop} (hbox : BoxRoundTrips E.bc bwf) (hp : BoxParsed E.bc bwf)
    (hb : NonExp E.bc.parse) (C : List (Constant G B)) (M : Byte → Byte → Option FuncSig) (st st' : TStore) (s r : Bytes)
    (e : Expr G B) (h : Expr.parse E (treeReader C M) st s = some ((e, st'), r)) :
    ∃ bs, Expr.ser E e none = .ok (bs, none) ∧
      ∀ rest, Expr.parse E (treeReader C M) st (bs ++ rest) = some ((e, st'), rest) := by
  obtain ⟨h1, h2⟩ := parsed_good_expr E hp (treeReader C M) (by intro h; cases h) st _ _ _ h
  simp only at h1 h2
  subst h2
  exact C50_roundtrip E hbox hb C M e st h1

/-- No methods: for the examples. -/
def noMethods : Byte → Byte → Option FuncSig := fun _ _ => none

/-- `{ val x = HEIGHT + 3; x > 5 }`. -/
def exprExample : Expr (Fin 3) Empty :=
  .block [.valDef 1 (.bin .plus (.op .height []) (.const (intConst 3)))] (.bin .gt (.valUse 1 .int) (.const (intConst 5)))

theorem exprExample_good (R : Reader (Fin 3) Empty) : Good toySers.utf8 (fun _ => True) R exprExample [] := by
  simp [exprExample, Good, GoodAll, isBools, after, afterAll, FMap.get, FMap.insert, tpe, BinK.resTpe, SOp.arity, SOp.check,
    toySers, intConst_good, SOp.resTpe]

example : Expr.ser toySers exprExample none = .ok ([216, 1, 214, 1, 154, 163, 4, 6, 145, 114, 1, 4, 10], none) := by
  with_unfolding_all rfl

example (R : Reader (Fin 3) Empty) :
    Good toySers.utf8 (fun _ => True) { R with consts := [intConst 1], subst := true } (.bin .plus (.placeholder 0 .int) (.op .height [])) [] := by
  simp [Good, GoodAll, isBools, SOp.arity, SOp.check, intConst]

/-- C50 fails for a binary operation whose left operand is a collection of Boolean constants: the op code of that operand is
taken for the short form of a binary operation on two Boolean constants.  `Coll(true, false) == Coll(true, false)` is written, and
read back as `false == true` with four bytes left over. -/
theorem C50_bools_operand_violates :
    Expr.ser toySers (.bin .eq (.bools [true, false]) (.bools [true, false])) none =
      .ok ([147, 133, 2, 1, 133, 2, 1], none) ∧
    Expr.parse toySers (treeReader [] noMethods) [] [147, 133, 2, 1, 133, 2, 1] =
      some ((.bin .eq (boolExpr false) (boolExpr true), []), [1, 133, 2, 1]) := ⟨by with_unfolding_all rfl, by with_unfolding_all rfl⟩

omit [DecidableEq G] in
/-- C50 fails for collections longer than 65535, made by `Collection::new` without complaint: the count is written modulo
65536. -/
theorem C50_long_collection_violates [DecidableEq G] (E : Sers G B T) (t : SType) (items items' : List (Expr G B))
    (h : items'.length = items.length + 65536) (w : WStore G B) (a : Bytes × WStore G B) (ha : Expr.serAll E items' w = .ok a)
    (tb : Bytes) (ht : putType t = .ok tb) :
    Expr.ser E (.coll t items') w = .ok (Kind.coll.code :: (putU16 (BitVec.ofNat 16 items.length) ++ tb ++ a.1), a.2) := by
  rw [Expr.ser, ht, Outcome.bind_ok, ha, Outcome.bind_ok, h]
  have : BitVec.ofNat 16 (items.length + 65536) = BitVec.ofNat 16 items.length := by
    apply BitVec.eq_of_toNat_eq
    rw [BitVec.toNat_ofNat, BitVec.toNat_ofNat, Nat.add_mod_right]
  rw [this]
  rfl

example : (List.replicate 65537 (Expr.op SOp.height [] : Expr (Fin 3) Empty)).length =
    [(Expr.op SOp.height [] : Expr (Fin 3) Empty)].length + 65536 := by rw [List.length_replicate]; rfl

/-! ## C43 -/

omit [DecidableEq G] in
/-- C43: the header byte is read back. -/
theorem C43_header (h : TreeHeader) (hg : GoodHeader h) : TreeHeader.new h.serialized = some h :=
  TreeHeader.new_serialized h hg

/-- C43: exactly the bytes with a version above 1 in the low three bits are refused, and a byte without the unused bits
5..7 is written as it was read. -/
theorem C43_header_bytes : (∀ b : Byte, TreeHeader.new b = none ↔ 1 < b.toNat % 8) ∧
    ∀ (b : Byte) (h : TreeHeader), TreeHeader.new b = some h → (h.serialized = b ↔ b.toNat < 32) := by
  have h1 : ∀ n : Fin 256, TreeHeader.new (BitVec.ofFin n) = none ↔ 1 < (BitVec.ofFin n : Byte).toNat % 8 := by decide +kernel
  have h2 : ∀ n : Fin 256, ∀ h ∈ (TreeHeader.new (BitVec.ofFin n)).toList,
      (h.serialized = BitVec.ofFin n ↔ (BitVec.ofFin n : Byte).toNat < 32) := by decide +kernel
  refine ⟨fun b => h1 b.toFin, fun b h e => ?_⟩
  exact h2 b.toFin h (by rw [show (BitVec.ofFin b.toFin : Byte) = b from rfl, e]; simp)

/-- C43: writing a tree and reading it back, in whatever state the reader is and with anything behind it, returns the tree.
Writing succeeds unless the body does not fit the 32-bit size field. -/
theorem C43_roundtrip (E : Sers G B T) {bwf : B → Prop} (hbox : BoxRoundTrips E.bc bwf) (hb : NonExp E.bc.parse)
    (M : Byte → Byte → Option FuncSig) (t : ETree G B) (hg : GoodTree E bwf M t) :
    (FitsSize E t → ∃ bs, ETree.ser E t = .ok bs) ∧
    ∀ bs, ETree.ser E t = .ok bs → ∀ st, ∃ st', ∀ rest, ETree.parseIn E M st (bs ++ rest) = some ((t, st'), rest) :=
  ETree.rt E hbox hb M t hg

/-- C43: the same for a tree given as a byte string. -/
theorem C43_bytes_roundtrip (E : Sers G B T) {bwf : B → Prop} (hbox : BoxRoundTrips E.bc bwf) (hb : NonExp E.bc.parse)
    (M : Byte → Byte → Option FuncSig) (t : ETree G B) (hg : GoodTree E bwf M t) (bs : Bytes) (hs : ETree.ser E t = .ok bs) :
    ETree.parseBytes E M bs = some t := ETree.bytes_rt E hbox hb M t hg bs hs

/-- C43: whatever is read – parsed or not – can be written back and read again as the same tree. -/
theorem C43_reread (E : Sers G B T) {bwf : B → Prop} (hbox : BoxRoundTrips E.bc bwf) (hp : BoxParsed E.bc bwf)
    (hb : NonExp E.bc.parse) (M : Byte → Byte → Option FuncSig) (s r : Bytes) (t : ETree G B)
    (h : ETree.parse E M s = some (t, r)) :
    GoodTree E bwf M t ∧ ∀ bs, ETree.ser E t = .ok bs → ∀ rest, ETree.parse E M (bs ++ rest) = some (t, rest) := by
  have hg := ETree.parse_good E hp M s t r h
  exact ⟨hg, fun bs hs rest => ETree.parse_rt E hbox hb M t hg bs hs rest⟩

omit [DecidableEq G] in
/-- C43: `sigma_parse_bytes` keeps the very bytes of a tree it cannot parse; it fails only if the size flag is set and the
bytes end before the body does. -/
theorem C43_unparsed_bytes [DecidableEq G] (E : Sers G B T) (M : Byte → Byte → Option FuncSig) (bytes b : Bytes)
    (h : ETree.parseBytes E M bytes = some (.unparsed b : ETree G B)) : b = bytes ∧ ETree.ser E (.unparsed b : ETree G B) = .ok bytes := by
  have : b = bytes := by
    unfold ETree.parseBytes at h
    have hb : ∀ (h' : TreeHeader) (s : Bytes) x, ETree.parseBody E M h' [] s = some x → x.1.1 ≠ (.unparsed b : ETree G B) := by
      intro h' s x hx
      unfold ETree.parseBody at hx
      obtain ⟨C, r, _, h2⟩ := Parser.bind_eq_some.1 hx
      obtain ⟨e, r', _, h4⟩ := Parser.bind_eq_some.1 h2
      simp only [Parser.pure_run, Option.some.injEq] at h4
      subst h4
      exact fun h => by cases h
    split at h
    · simp_all
    · split at h
      · split at h
        · cases h
        · split at h
          · split at h
            · rename_i hx; simp only [Option.some.injEq] at h; exact absurd h (hb _ _ _ hx)
            · simp_all
          · simp_all
      · split at h
        · rename_i hx
          split at h
          · simp only [Option.some.injEq] at h; exact absurd h (hb _ _ _ hx)
          · simp_all
        · simp_all
  exact ⟨this, by rw [this]; rfl⟩

/-- C43, partial: inside a box (where the reader does not know the end of the tree) the bytes of a tree that cannot be parsed
are kept if the unused header bits are zero and the size is in its shortest form.  Missing: other headers and sizes, for which
it fails, see `C43_unparsed_in_box_violates`. -/
theorem C43_unparsed_in_box_partial (E : Sers G B T) (M : Byte → Byte → Option FuncSig) (hd : Byte) (hd32 : hd.toNat < 32)
    (n : BitVec 32) (body rest : Bytes) (hl : body.length = n.toNat) (b r : Bytes)
    (h : ETree.parse E M (hd :: (putU32 n ++ (body ++ rest))) = some ((.unparsed b : ETree G B), r)) :
    b = hd :: (putU32 n ++ body) ∧ r = rest ∧ ETree.ser E (.unparsed b : ETree G B) = .ok (hd :: (putU32 n ++ body)) :=
  ETree.unparsed_in_box E M hd hd32 n body rest hl b r h

/-- C43 fails inside a box: the bits 5..7 of the header are dropped, and the size is written in its shortest form.  So the bytes
written differ from the bytes received, and with them the id of the box. -/
theorem C43_unparsed_in_box_violates :
    ETree.parse toySers noMethods [0x28, 1, 255] = some (.unparsed [8, 1, 255], []) ∧
    ETree.parse toySers noMethods [8, 0x81, 0, 255] = some (.unparsed [8, 1, 255], []) :=
  ⟨by with_unfolding_all rfl, by with_unfolding_all rfl⟩

/-- C43 fails for a sized tree with bytes behind its root: they are dropped. -/
theorem C43_trailing_bytes_violates :
    ETree.parseBytes toySers noMethods [8, 3, 4, 6, 99] = some (.parsed ⟨0, false, true⟩ [] (.const (intConst 3))) ∧
    ETree.ser toySers (.parsed ⟨0, false, true⟩ [] (.const (intConst 3))) = .ok [8, 2, 4, 6] := ⟨by with_unfolding_all rfl, by with_unfolding_all rfl⟩

/-- C43 fails for trees with more than 4096 constants: `ErgoTree::new` makes them and `sigma_serialize` writes them, but they
cannot be read. -/
theorem C43_many_constants_violates (E : Sers G B T) {bwf : B → Prop} (hbox : BoxRoundTrips E.bc bwf)
    (hb : NonExp E.bc.parse) (M : Byte → Byte → Option FuncSig) (R0 : Reader G B) (hM : R0.methods = M) (e : Expr G B)
    (hp : NoPh e) (hg : Good E.utf8 bwf R0 e []) (hc : ∀ c ∈ constsOf e, GoodConst E.utf8 bwf c)
    (h1 : 4096 < (constsOf e).length) (h2 : (constsOf e).length ≤ 2 ^ 32 - 1) :
    ∃ t bs, ETree.new E M (TreeHeader.v0 true) e = .ok t ∧ ETree.ser E t = .ok bs ∧ ETree.parse E M bs = none ∧
      ETree.parseBytes E M bs = some (.unparsed bs) :=
  ETree.many_constants E hbox hb M R0 hM e hp hg hc h1 h2

example : NoPh (.coll .int (List.replicate 5000 (.const (intConst 0)))) ∧
    4096 < (constsOf (.coll .int (List.replicate 5000 (.const (intConst 0))) : Expr (Fin 3) Empty)).length := by
  have h1 : ∀ n, NoPhs (List.replicate n (.const (intConst 0) : Expr (Fin 3) Empty)) := by
    intro n; induction n with
    | zero => trivial
    | succ n ih => rw [List.replicate_succ, NoPhs]; exact ⟨trivial, ih⟩
  have h2 : ∀ n, constsOfs (List.replicate n (.const (intConst 0) : Expr (Fin 3) Empty)) = List.replicate n (intConst 0) := by
    intro n; induction n with
    | zero => rfl
    | succ n ih => rw [List.replicate_succ, constsOfs, ih, constsOf]; rfl
  constructor
  · rw [NoPh]; exact h1 _
  · rw [constsOf, h2, List.length_replicate]; decide

/-- C43 fails for trees read one after another by one reader (the outputs of a transaction): a tree that uses a variable it
does not define is refused on its own, and accepted after a tree that defines the variable. -/
theorem C43_leaked_variable_violates :
    ETree.parse toySers noMethods [0, 114, 1] = none ∧
    (ETree.parseIn toySers noMethods [] [0, 214, 1, 4, 6, 0, 114, 1] >>= fun x => ETree.parseIn toySers noMethods x.1.2 x.2) =
      some ((.parsed ⟨0, false, false⟩ [] (.valUse 1 .int), [(1, .int)]), []) :=
  ⟨by with_unfolding_all rfl, by with_unfolding_all rfl⟩

/-- C43: trees are a codec in the sense of the box and transaction theorems (C10, C11, C49), which therefore hold with trees
in place of their parameter. -/
theorem C43_tree_codec (E : Sers G B T) {bwf : B → Prop} (hbox : BoxRoundTrips E.bc bwf) (hb : NonExp E.bc.parse)
    (M : Byte → Byte → Option FuncSig) :
    GoodSers ({ utf8 := E.utf8, pc := E.pc, bc := E.bc, tc := ETree.codec E M, H := E.H } : Sers G B (ETree G B)) bwf (fun t => GoodTree E bwf M t ∧ FitsSize E t) where
  box := hbox
  boxNE := hb
  tree := fun t ht => by
    obtain ⟨bs, hs⟩ := (ETree.rt E hbox hb M t ht.1).1 ht.2
    exact ⟨bs, hs, ETree.parse_rt E hbox hb M t ht.1 bs hs⟩
  treeNE := ETree.nonExp_parse E hb M

/-- The tree made of `exprExample` with the size flag: two constants. -/
def treeExample : ETree (Fin 3) Empty :=
  .parsed (TreeHeader.v1 true) [intConst 3, intConst 5]
    (.block [.valDef 1 (.bin .plus (.op .height []) (.placeholder 0 .int))] (.bin .gt (.valUse 1 .int) (.placeholder 1 .int)))

theorem treeExample_good : GoodTree toySers (fun _ => True) noMethods treeExample := by
  refine ⟨by unfold GoodHeader; decide, by decide, by decide, ?_, ?_⟩
  · intro c hc
    simp only [List.mem_cons, List.not_mem_nil, or_false] at hc
    rcases hc with rfl | rfl <;> exact intConst_good _
  · simp [Good, GoodAll, isBools, after, afterAll, FMap.get, FMap.insert, tpe, BinK.resTpe, SOp.arity, SOp.check,
      treeReader, SOp.resTpe, intConst]

example : ETree.ser toySers treeExample =
    .ok [25, 18, 2, 4, 6, 4, 10, 216, 1, 214, 1, 154, 163, 115, 0, 145, 114, 1, 115, 1] := by decide +kernel

/-- A body that cannot be parsed. -/
example : GoodTree toySers (fun _ => True) noMethods (.unparsed [8, 1, 255]) :=
  ⟨⟨0, false, true⟩, 1, [255], by unfold GoodHeader; decide, rfl, by decide +kernel, rfl, rfl⟩

/-! ## C42 -/

/-- C42: `ErgoTree::new` with the segregation flag puts the constants of the expression, in the order in which they are
written, into the table and leaves placeholders; `proposition` gives the expression back. -/
theorem C42_new (E : Sers G B T) {bwf : B → Prop} (hbox : BoxRoundTrips E.bc bwf) (hb : NonExp E.bc.parse)
    (M : Byte → Byte → Option FuncSig) (h : TreeHeader) (hs : h.seg = true) (e : Expr G B) (R0 : Reader G B)
    (hM : R0.methods = M) (hp : NoPh e) (hg : Good E.utf8 bwf R0 e []) (hn : (constsOf e).length ≤ 2 ^ 32 - 1) :
    ∃ root, ETree.new E M h e = .ok (.parsed h (constsOf e) root) ∧ NoConst root ∧
      Good E.utf8 bwf (treeReader (constsOf e) M) root [] ∧ substAll (constsOf e) root = e ∧
      ETree.proposition E M (.parsed h (constsOf e) root) = .ok e := by
  obtain ⟨h1, h2⟩ := ETree.new_seg E hbox hb M h hs e R0 hM hp hg hn
  have h3 := noConst_segR e [] 0 hg
  have h4 : substAll (constsOf e) (segR e 0) = e :=
    subst_segR (by omega) e [] 0 hp hg ⟨[], [], by simp, rfl⟩
  refine ⟨segR e 0, h1, h3, h2, h4, ?_⟩
  rw [ETree.proposition_seg E hbox hb M h hs _ _ h3 h2, h4]

omit [DecidableEq G] in
/-- C42: without the flag the tree holds the expression as it is. -/
theorem C42_new_plain [DecidableEq G] (E : Sers G B T) (M : Byte → Byte → Option FuncSig) (h : TreeHeader) (hs : h.seg = false)
    (e : Expr G B) : ETree.new E M h e = .ok (.parsed h [] e) ∧ ETree.proposition E M (.parsed h [] e) = .ok e := by
  unfold ETree.new ETree.proposition
  simp [hs]

/-- C42, partial: the proposition is the root with the placeholders replaced by the constants of the tree.  Missing: roots with
constants of their own, for which it fails, see `C42_inline_constant_violates`. -/
theorem C42_proposition_partial (E : Sers G B T) {bwf : B → Prop} (hbox : BoxRoundTrips E.bc bwf)
    (hb : NonExp E.bc.parse) (M : Byte → Byte → Option FuncSig) (h : TreeHeader) (hs : h.seg = true)
    (C : List (Constant G B)) (root : Expr G B) (hc : NoConst root) (hg : Good E.utf8 bwf (treeReader C M) root []) :
    ETree.proposition E M (.parsed h C root) = .ok (substAll C root) :=
  ETree.proposition_seg E hbox hb M h hs C root hc hg

omit [DecidableEq G] in
/-- C42: a constant is replaced exactly if there is one at that index and it has the same type; then only this constant
changes: header, root, template bytes and all other constants stay. -/
theorem C42_with_constant [DecidableEq G] (E : Sers G B T) (h : TreeHeader) (C : List (Constant G B)) (root : Expr G B) (i : Nat)
    (c : Constant G B) :
    ((ETree.parsed h C root).withConstant i c = none ↔ ∀ old, C[i]? = some old → old.tpe ≠ c.tpe) ∧
    ∀ t, (ETree.parsed h C root).withConstant i c = some t →
      (∃ C', t = .parsed h C' root ∧ C'.length = C.length) ∧ t.getConstant i = some (some c) ∧
      (∀ j, j ≠ i → t.getConstant j = (ETree.parsed h C root).getConstant j) ∧
      t.constantsLen = (ETree.parsed h C root).constantsLen ∧
      t.templateBytes E = (ETree.parsed h C root).templateBytes E := by
  unfold ETree.withConstant
  dsimp only
  cases e : C[i]? with
  | none => simp
  | some old =>
    simp only [SType.beq_iff]
    constructor
    · simp only [Option.some.injEq, forall_eq']
      split
      · rename_i ht; simp [ht]
      · rename_i ht; simp [Ne.symm ht]
    · intro t ht
      split at ht
      · cases ht
        have hi : i < C.length := (List.getElem?_eq_some_iff.1 e).1
        refine ⟨⟨_, rfl, by simp⟩, ?_, fun j hj => ?_, ?_, rfl⟩
        · simp [ETree.getConstant, ETree.getConstants, hi]
        · simp [ETree.getConstant, ETree.getConstants, List.getElem?_set, Ne.symm hj]
        · simp [ETree.constantsLen, ETree.getConstants]
      · cases ht

/-- C42, partial: after the replacement the proposition is the root with the new constant in place of the old one.  Missing as in
`C42_proposition_partial`. -/
theorem C42_replaced_proposition_partial (E : Sers G B T) {bwf : B → Prop} (hbox : BoxRoundTrips E.bc bwf)
    (hb : NonExp E.bc.parse) (M : Byte → Byte → Option FuncSig) (h : TreeHeader) (hs : h.seg = true)
    (C : List (Constant G B)) (root : Expr G B) (hc : NoConst root) (hg : Good E.utf8 bwf (treeReader C M) root [])
    (i : Nat) (c : Constant G B) (t : ETree G B) (ht : (ETree.parsed h C root).withConstant i c = some t) :
    ETree.proposition E M t = .ok (substAll (C.set i c) root) := by
  unfold ETree.withConstant at ht
  simp only at ht
  split at ht
  · rename_i old e
    split at ht
    · rename_i htp
      cases ht
      refine ETree.proposition_seg E hbox hb M h hs _ root hc ?_
      refine good_congr (R := treeReader C M) (R' := treeReader (C.set i c) M) (fun j c' hj => ?_) rfl root [] hg
      by_cases hij : i = j
      · subst hij
        have hj' : C[i]? = some c' := hj
        rw [e] at hj'; cases hj'
        have hi : i < C.length := (List.getElem?_eq_some_iff.1 e).1
        exact ⟨c, by show (C.set i c)[i]? = _; simp [hi], (SType.beq_iff _ _).1 htp⟩
      · exact ⟨c', by show (C.set i c)[j]? = _; rw [List.getElem?_set, if_neg hij]; exact hj, rfl⟩
    · cases ht
  · cases ht

example : (treeExample.withConstant 1 (intConst 7)).isSome = true ∧
    (treeExample.withConstant 2 (intConst 7)).isSome = false ∧
    (treeExample.withConstant 1 ⟨.long, .long 7⟩).isSome = false := by decide +kernel

/-- The hypotheses on root and constants hold for the example. -/
example : ∃ h C root, treeExample = .parsed h C root ∧ h.seg = true ∧ NoConst root ∧
    substAll C root = exprExample :=
  ⟨_, _, _, rfl, rfl, by simp [NoConst, NoConsts, boolConst?], rfl⟩

/-- C42 fails for a segregated tree whose root has constants of its own (which `ErgoTree::sigma_parse` accepts): `proposition`
replaces them by the constants of the table.  The tree `10 01 04 02 04 06` has the constant 1 and the root 3; its
proposition is 1.  Without a constant in the table it is an error. -/
theorem C42_inline_constant_violates :
    ETree.parseBytes toySers noMethods [16, 1, 4, 2, 4, 6] =
      some (.parsed ⟨0, true, false⟩ [intConst 1] (.const (intConst 3))) ∧
    ETree.proposition toySers noMethods (.parsed ⟨0, true, false⟩ [intConst 1] (.const (intConst 3))) =
      .ok (.const (intConst 1)) ∧
    ETree.proposition toySers noMethods (.parsed ⟨0, true, false⟩ [] (.const (intConst 3))) = .err :=
  ⟨by with_unfolding_all rfl, by with_unfolding_all rfl, by with_unfolding_all rfl⟩

/-- C42 fails for an expression that already has a placeholder: `new` takes it for one of its own, so that
`placeholder 0 + 3` becomes `3 + 3`. -/
theorem C42_new_placeholder_violates :
    (ETree.new toySers noMethods (TreeHeader.v0 true) (.bin .plus (.placeholder 0 .int) (.const (intConst 3))) >>=
      ETree.proposition toySers noMethods) = .ok (.bin .plus (.const (intConst 3)) (.const (intConst 3))) := by with_unfolding_all rfl

end Verif
