import Verif.Props.ErgoTree
import Verif.Props.Transaction
import Verif.Model.Nested

/-!
# C51 – transactions and boxes with real ErgoTrees, nested to any depth
-/

namespace Verif
open Spec Expr ETree
variable {G : Type} [DecidableEq G]

/-- The trees that can be written at a level, given the boxes that can. -/
def GoodTreeOver {B : Type} (utf8 : Bytes → Bool) (pc : PointCodec G) (H : HashFn) (M : Byte → Byte → Option FuncSig)
    (bc : BoxCodec B) (bwf : B → Prop) (t : ETree G B) : Prop :=
  GoodTree (sersBase utf8 pc H bc) bwf M t ∧ FitsSize (sersBase utf8 pc H bc) t

/-- The boxes within the bounds of their Rust types at level `n`. -/
def GoodBoxL (utf8 : Bytes → Bool) (pc : PointCodec G) (H : HashFn) (M : Byte → Byte → Option FuncSig) :
    (n : Nat) → BoxL G n → Prop
  | 0, _ => True
  | n + 1, b => GoodBox (sersL utf8 pc H M n) (GoodBoxL utf8 pc H M n)
      (GoodTreeOver utf8 pc H M (sersL utf8 pc H M n).bc (GoodBoxL utf8 pc H M n)) b

/-- The trees that can be written at level `n`. -/
def GoodTreeL (utf8 : Bytes → Bool) (pc : PointCodec G) (H : HashFn) (M : Byte → Byte → Option FuncSig) (n : Nat)
    (t : ETree G (BoxL G n)) : Prop :=
  GoodTreeOver utf8 pc H M (sersL utf8 pc H M n).bc (GoodBoxL utf8 pc H M n) t

theorem sersOver_good {B : Type} (utf8 : Bytes → Bool) (pc : PointCodec G) (H : HashFn) (M : Byte → Byte → Option FuncSig)
    (bc : BoxCodec B) (bwf : B → Prop) (hbox : BoxRoundTrips bc bwf) (hb : NonExp bc.parse) :
    GoodSers (sersOver utf8 pc H M bc) bwf (GoodTreeOver utf8 pc H M bc bwf) :=
  C43_tree_codec (sersBase utf8 pc H bc) hbox hb M

/-- C51: at every nesting depth the codecs of boxes and trees satisfy what the theorems on registers, boxes and transactions
ask of them. -/
theorem C51_levels (utf8 : Bytes → Bool) (pc : PointCodec G) (H : HashFn) (M : Byte → Byte → Option FuncSig) (n : Nat) :
    GoodSers (sersL utf8 pc H M n) (GoodBoxL utf8 pc H M n) (GoodTreeL utf8 pc H M n) := by
  induction n with
  | zero => exact sersOver_good utf8 pc H M _ _ (fun b => b.elim) NonExp.fail
  | succ n ih =>
    exact sersOver_good utf8 pc H M (EBox.codec (sersL utf8 pc H M n)) _ (fun b hb => EBox.rt _ ih b hb)
      (EBox.nonExp_parse _ ih.boxNE ih.treeNE)

/-- C51: a transaction whose boxes have parsed scripts, and registers and scripts with boxes in turn, to any depth, is written
and read back. -/
theorem C51_tx_roundtrip (utf8 : Bytes → Bool) (pc : PointCodec G) (H : HashFn) (M : Byte → Byte → Option FuncSig) (n : Nat)
    (t : Tx G (BoxL G n) (ETree G (BoxL G n)))
    (g : GoodTx (sersL utf8 pc H M n) (GoodBoxL utf8 pc H M n) (GoodTreeL utf8 pc H M n) t) :
    ∃ bs, t.ser (sersL utf8 pc H M n) = .ok bs ∧ ∀ rest, Tx.parse (sersL utf8 pc H M n) (bs ++ rest) = some (t, rest) :=
  C11_roundtrip _ _ _ (C51_levels utf8 pc H M n) t g

/-- C51: the same for boxes. -/
theorem C51_box_roundtrip (utf8 : Bytes → Bool) (pc : PointCodec G) (H : HashFn) (M : Byte → Byte → Option FuncSig) (n : Nat)
    (b : BoxL G (n + 1)) (g : GoodBoxL utf8 pc H M (n + 1) b) :
    ∃ bs, EBox.ser (sersL utf8 pc H M n) b = .ok bs ∧ ∀ rest, EBox.parse (sersL utf8 pc H M n) (bs ++ rest) = some (b, rest) :=
  EBox.rt _ (C51_levels utf8 pc H M n) b g

/-- C51: at every depth, transactions with the same id have the same inputs, data inputs and outputs – scripts included – or
there are two messages with the same hash. -/
theorem C51_tx_commits (utf8 : Bytes → Bool) (pc : PointCodec G) (H : HashFn) (M : Byte → Byte → Option FuncSig) (n : Nat)
    (t t' : Tx G (BoxL G n) (ETree G (BoxL G n)))
    (g : GoodTx (sersL utf8 pc H M n) (GoodBoxL utf8 pc H M n) (GoodTreeL utf8 pc H M n) t)
    (g' : GoodTx (sersL utf8 pc H M n) (GoodBoxL utf8 pc H M n) (GoodTreeL utf8 pc H M n) t') (e : t.txId = t'.txId) :
    essence t = essence t' ∨ ∃ m m', t.bytesToSign (sersL utf8 pc H M n) = .ok m ∧
      t'.bytesToSign (sersL utf8 pc H M n) = .ok m' ∧ Collision (sersL utf8 pc H M n).H [m] [m'] :=
  C10_commits _ _ _ (C51_levels utf8 pc H M n) t t' g g' e

/-- A box guarded by `{ val x = HEIGHT + 3; x > 5 }` (sized and segregated) whose script has a box constant in turn. -/
example : ∃ b : BoxL (Fin 3) 2, GoodBoxL (fun _ => true) toyCodec sumHash noMethods 2 b ∧
    ∃ h b' root, (b : EBox (Fin 3) (BoxL (Fin 3) 1) (ETree (Fin 3) (BoxL (Fin 3) 1))).tree =
      .parsed h [⟨.box, .box b'⟩] root ∧
      (b' : EBox (Fin 3) Empty (ETree (Fin 3) Empty)).tree = treeExample := by
  have g0 := C51_levels (fun _ => true) toyCodec sumHash noMethods 0
  have g1 := C51_levels (fun _ => true) toyCodec sumHash noMethods 1
  let c0 : BoxCand (Fin 3) (BoxL (Fin 3) 0) (ETree (Fin 3) (BoxL (Fin 3) 0)) :=
    { value := 1000000, tree := treeExample, tokens := none, regs := [], height := 3 }
  have ht0 : GoodTreeL (fun _ => true) toyCodec sumHash noMethods 0 treeExample := by
    refine ⟨⟨by unfold GoodHeader; decide, treeExample_good.2.1, treeExample_good.2.2.1, treeExample_good.2.2.2.1, treeExample_good.2.2.2.2⟩ , fun _ b hb => ?_⟩
    have : ETree.serBody (sersBase (fun _ => true) toyCodec sumHash noBox) (TreeHeader.v1 true) [intConst 3, intConst 5]
        (.block [.valDef 1 (.bin .plus (.op .height []) (.placeholder 0 .int))] (.bin .gt (.valUse 1 .int) (.placeholder 1 .int)))
        = .ok [2, 4, 6, 4, 10, 216, 1, 214, 1, 154, 163, 115, 0, 145, 114, 1, 115, 1] := by decide +kernel
    have := hb.symm.trans this
    cases this
    decide
  have hc0 : GoodCand (fun _ => true) (GoodBoxL (fun _ => true) toyCodec sumHash noMethods 0)
      (GoodTreeL (fun _ => true) toyCodec sumHash noMethods 0) c0 := ⟨by decide, ht0, trivial, by decide, by simp [c0]⟩
  obtain ⟨b0, e0⟩ := EBox.ofCand_ok _ g0 c0 hc0 (tid 4) 0
  obtain ⟨s1, s2, s3, s4⟩ := EBox.ofCand_spec _ e0
  have gb0 : GoodBoxL (fun _ => true) toyCodec sumHash noMethods 1 b0 := ⟨s1 ▸ hc0, by rw [s2]; decide, s4⟩
  let k : Constant (Fin 3) (BoxL (Fin 3) 1) := ⟨.box, .box b0⟩
  have gk : GoodConst (fun _ => true) (GoodBoxL (fun _ => true) toyCodec sumHash noMethods 1) k := by
    refine ⟨?_, ?_, ?_⟩ <;> simp [k, WfType, NoFunc, WellTyped]
    exact gb0
  let tr : ETree (Fin 3) (BoxL (Fin 3) 1) := .parsed (TreeHeader.v0 true) [k] (.bin .gt (.op .height []) (.op .extractCreationInfo [.placeholder 0 .box]))
  have ht1 : GoodTreeL (fun _ => true) toyCodec sumHash noMethods 1 tr := by
    refine ⟨⟨by unfold GoodHeader; decide, (fun h => by cases h), by simp, ?_, ?_⟩, (fun h => by cases h)⟩
    · intro c hc
      simp only [List.mem_cons, List.not_mem_nil, or_false] at hc
      subst hc
      exact gk
    · refine ⟨rfl, ⟨rfl, rfl, trivial⟩, rfl, rfl, ⟨k, rfl, rfl⟩, trivial⟩
  let c1 : BoxCand (Fin 3) (BoxL (Fin 3) 1) (ETree (Fin 3) (BoxL (Fin 3) 1)) :=
    { value := 1000000, tree := tr, tokens := none, regs := [.parsed k], height := 3 }
  have hc1 : GoodCand (fun _ => true) (GoodBoxL (fun _ => true) toyCodec sumHash noMethods 1)
      (GoodTreeL (fun _ => true) toyCodec sumHash noMethods 1) c1 := by
    refine ⟨by simp [c1], ht1, trivial, by simp [c1], ?_⟩
    intro v hv
    simp only [c1, List.mem_cons, List.not_mem_nil, or_false] at hv
    subst hv
    exact gk
  obtain ⟨b1, e1⟩ := EBox.ofCand_ok _ g1 c1 hc1 (tid 5) 0
  obtain ⟨r1, r2, r3, r4⟩ := EBox.ofCand_spec _ e1
  refine ⟨b1, ⟨r1 ▸ hc1, by rw [r2]; decide, r4⟩, _, b0, _, congrArg BoxCand.tree r1, congrArg BoxCand.tree s1⟩

end Verif
