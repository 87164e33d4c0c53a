import Verif.Proofs.Subst
import Verif.Props.ErgoTree
import Verif.Props.Coll

set_option linter.unusedSimpArgs false
set_option linter.unusedVariables false

/-!
# C71: `substConstants`

`replaceAll ups C` (`Spec/Subst.lean`): the constants `C` after the replacements `ups`; `Fitting C p`: the replacement `p` is for a
constant there is, of the same type.
-/

namespace Verif
open Spec
variable {G B T : Type} [DecidableEq G] (W : World G B T) (C : EvalCtx G B)

/-- The values of constants, as a script gets them. -/
def valuesOf (cs : List (Constant G B)) : List (Value G B) := cs.map fun c => .ofLiteral c.v

/-- The positions as integers, with the constants for them. -/
def updatesOf (is : List (BitVec 32)) (cs : List (Constant G B)) : List (Int × Constant G B) := (is.map BitVec.toInt).zip cs

theorem strictOp_subst (a b c : Value G B) : Value.strictOp W C .substConstants [a, b, c] = Value.substConstants W a b c := rfl

theorem substConstants_parsed {bwf : B → Prop} (hp : BoxParsed W.E.bc bwf) (b : Bytes) (h : TreeHeader) (K : List (Constant G B))
    (root : Expr G B) (hb : ETree.parseBytes W.E W.M b = some (.parsed h K root)) (is : List (BitVec 32)) (cs : List (Constant G B))
    (hl : is.length = cs.length) (hc : ∀ c ∈ cs, WellTyped bwf c.v c.tpe) (t : SType) :
    Value.strictOp W C .substConstants [.collByte b, .coll .int (is.map .int), .coll t (valuesOf cs)] =
      (Value.substLoop K.length (is.zip cs) (.parsed h K root) >>= fun t' => Res.ofOutcome .sigmaSerialization (t'.ser W.E) >>= fun out =>
        pure (.collByte out)) := by
  rw [strictOp_subst]
  unfold Value.substConstants
  show (Res.mapAll Value.asInt (is.map .int) >>= _) = _
  rw [mapAll_asInt]
  simp only [Res.bind_ok, valuesOf, toConstants_ofLiteral cs hc, Res.ofOption, hl, ne_eq, not_true_eq_false, if_false, hb]
  rfl

/-- C71: replacing constants of a serialized tree by constants of the same types gives the bytes of the tree with the new constants:
read again, it has the same header and root, and at each position the last constant given for it or else the old one. -/
theorem C71_substitutes {bwf : B → Prop} (hbox : BoxRoundTrips W.E.bc bwf) (hp : BoxParsed W.E.bc bwf) (hb : NonExp W.E.bc.parse)
    (b : Bytes) (h : TreeHeader) (K : List (Constant G B)) (root : Expr G B)
    (hT : ETree.parseBytes W.E W.M b = some (.parsed h K root)) (is : List (BitVec 32)) (cs : List (Constant G B)) (t : SType)
    (hl : is.length = cs.length) (hc : ∀ c ∈ cs, GoodConst W.E.utf8 bwf c) (hf : ∀ p ∈ updatesOf is cs, Fitting K p)
    (hs : FitsSize W.E (.parsed h (replaceAll (updatesOf is cs) K) root : ETree G B)) :
    ∃ b', Value.strictOp W C .substConstants [.collByte b, .coll .int (is.map .int), .coll t (valuesOf cs)] = .ok (.collByte b') ∧
      ETree.parseBytes W.E W.M b' = some (.parsed h (replaceAll (updatesOf is cs) K) root) := by
  have hg := parseBytes_good W.E hp W.M b h K root hT
  have hu : (is.zip cs).map (fun p => (p.1.toInt, p.2)) = updatesOf is cs := by
    unfold updatesOf
    rw [List.zip_map_left]
    rfl
  have hg' := replaceAll_good hg hf fun p hp => hc p.2 (List.of_mem_zip hp).2
  have hK : K.length < 2 ^ 31 := by have := hg.2.2.1; omega
  obtain ⟨bs, hbs⟩ := (C43_roundtrip W.E hbox hb W.M _ hg').1 hs
  refine ⟨bs, ?_, C43_bytes_roundtrip W.E hbox hb W.M _ hg' bs hbs⟩
  rw [substConstants_parsed W C hp b h K root hT is cs hl (fun c h => (hc c h).2.2) t,
    substLoop_ok h root K.length hK (is.zip cs) K rfl (fun p hp => hf _ (hu ▸ List.mem_map.2 ⟨p, hp, rfl⟩)), hu]
  simp only [Res.bind_ok, hbs, Res.ofOutcome]
  rfl

/-- C71 (partial): and its proposition is the old one with the new constants.  What is missing: trees with constants outside their
table (C42). -/
theorem C71_proposition_partial {bwf : B → Prop} (hbox : BoxRoundTrips W.E.bc bwf) (hp : BoxParsed W.E.bc bwf) (hb : NonExp W.E.bc.parse)
    (b : Bytes) (h : TreeHeader) (hseg : h.seg = true) (K : List (Constant G B)) (root : Expr G B) (hn : NoConst root)
    (hT : ETree.parseBytes W.E W.M b = some (.parsed h K root)) (is : List (BitVec 32)) (cs : List (Constant G B))
    (hc : ∀ c ∈ cs, GoodConst W.E.utf8 bwf c) (hf : ∀ p ∈ updatesOf is cs, Fitting K p) :
    ETree.proposition W.E W.M (.parsed h (replaceAll (updatesOf is cs) K) root) =
      .ok (substAll (replaceAll (updatesOf is cs) K) root) := by
  have hg := parseBytes_good W.E hp W.M b h K root hT
  have hg' := replaceAll_good hg hf fun p hp => hc p.2 (List.of_mem_zip hp).2
  exact C42_proposition_partial W.E hbox hb W.M h hseg _ root hn hg'.2.2.2.2

/-- C71: a position outside the table (also a negative one) or a constant of another type is refused. -/
theorem C71_refused {bwf : B → Prop} (hp : BoxParsed W.E.bc bwf) (b : Bytes) (h : TreeHeader) (K : List (Constant G B))
    (root : Expr G B) (hT : ETree.parseBytes W.E W.M b = some (.parsed h K root)) (is : List (BitVec 32)) (cs : List (Constant G B))
    (t : SType) (hl : is.length = cs.length) (hc : ∀ c ∈ cs, WellTyped bwf c.v c.tpe) (hf : ¬ ∀ p ∈ updatesOf is cs, Fitting K p) :
    Value.strictOp W C .substConstants [.collByte b, .coll .int (is.map .int), .coll t (valuesOf cs)] = .err .misc := by
  have hg := parseBytes_good W.E hp W.M b h K root hT
  have hK : K.length < 2 ^ 31 := by have := hg.2.2.1; omega
  have hu : (is.zip cs).map (fun p => (p.1.toInt, p.2)) = updatesOf is cs := by
    unfold updatesOf
    rw [List.zip_map_left]
    rfl
  rw [substConstants_parsed W C hp b h K root hT is cs hl hc t, substLoop_err h root K.length hK (is.zip cs) K rfl]
  · rfl
  · intro hall
    refine hf fun p hp => ?_
    rw [← hu] at hp
    obtain ⟨q, hq, rfl⟩ := List.mem_map.1 hp
    exact hall q hq

/-- C71: so is a number of values other than the number of positions. -/
theorem C71_lengths {bwf : B → Prop} (script : Value G B) (is : List (BitVec 32)) (cs : List (Constant G B)) (t : SType)
    (hl : is.length ≠ cs.length) (hc : ∀ c ∈ cs, WellTyped bwf c.v c.tpe) :
    Value.strictOp W C .substConstants [script, .coll .int (is.map .int), .coll t (valuesOf cs)] = .err .misc := by
  rw [strictOp_subst]
  unfold Value.substConstants
  show (Res.mapAll Value.asInt (is.map .int) >>= _) = _
  rw [mapAll_asInt]
  simp only [Res.bind_ok, valuesOf, toConstants_ofLiteral cs hc, Res.ofOption]
  exact if_pos (Ne.symm hl)

/-- C71: and bytes that are not a tree, or one of an unknown version. -/
theorem C71_unparsed {bwf : B → Prop} (b b' : Bytes) (hT : ETree.parseBytes W.E W.M b = some (.unparsed b' : ETree G B))
    (is : List (BitVec 32)) (cs : List (Constant G B)) (t : SType) (hc : ∀ c ∈ cs, WellTyped bwf c.v c.tpe) :
    Value.strictOp W C .substConstants [.collByte b, .coll .int (is.map .int), .coll t (valuesOf cs)] = .err .misc := by
  by_cases hl : is.length = cs.length
  · rw [strictOp_subst]
    unfold Value.substConstants
    show (Res.mapAll Value.asInt (is.map .int) >>= _) = _
    rw [mapAll_asInt]
    simp only [Res.bind_ok, valuesOf, toConstants_ofLiteral cs hc, Res.ofOption, hl, ne_eq, not_true_eq_false, if_false, hT]
    rfl
  · exact C71_lengths W C _ is cs t hl hc

/-- C71 fails for constants of type `Byte`: the new values are a `Coll[Byte]`, which has a form of its own that is refused whatever the
script. -/
theorem C71_violation_bytes (script : Value G B) (is : List (BitVec 32)) (bs : Bytes) :
    Value.strictOp W C .substConstants [script, .coll .int (is.map .int), .collByte bs] = .err .misc := by
  rw [strictOp_subst]
  unfold Value.substConstants
  show (Res.mapAll Value.asInt (is.map .int) >>= _) = _
  rw [mapAll_asInt]
  rfl

/-! ## An example -/

section Demo

/-- `HEIGHT + 3 > 5` as a tree with its two constants in the table. -/
def substTree : Bytes := [25, 18, 2, 4, 6, 4, 10, 216, 1, 214, 1, 154, 163, 115, 0, 145, 114, 1, 115, 1]

theorem substTree_parsed : ETree.parseBytes toySers noMethods substTree = some treeExample :=
  C43_bytes_roundtrip toySers (fun b _ => b.elim) (fun _ _ _ h => by cases h) noMethods _ treeExample_good _ (by decide +kernel)

/-- A world with these codecs; there are no boxes. -/
def substWorld : World (Fin 3) Empty Byte where
  E := toySers
  M := noMethods
  mode := .release
  box := { value := Empty.elim, bytes := Empty.elim, bytesNoRef := Empty.elim, script := Empty.elim, creation := Empty.elim,
           id := Empty.elim, tokens := Empty.elim, reg := fun b _ => b.elim }
  sha := sumHash
  gen := 1
  mul := (· + ·)
  inv := fun a => -a
  exp := fun a n => a * (Fin.ofNat 3 n)
  order := 3
  avl := fun _ _ _ => none

/-- The second constant becomes 9 (the 7 given first for this position does not count). -/
example (C : EvalCtx (Fin 3) Empty) : ∃ b', Value.strictOp substWorld C .substConstants
    [.collByte substTree, .coll .int [.int 1, .int 1], .coll .int [.int 7, .int 9]] = .ok (.collByte b') ∧
    ETree.parseBytes toySers noMethods b' = some (.parsed (TreeHeader.v1 true) [intConst 3, intConst 9]
      (.block [.valDef 1 (.bin .plus (.op .height []) (.placeholder 0 .int))] (.bin .gt (.valUse 1 .int) (.placeholder 1 .int)))) := by
  refine C71_substitutes substWorld C (bwf := fun _ => True) (fun b _ => b.elim) (fun _ b _ _ => b.elim) (fun _ _ _ h => by cases h) substTree _ _ _
    substTree_parsed [1, 1] [intConst 7, intConst 9] .int rfl ?_ ?_ ?_
  · simp only [List.mem_cons, List.not_mem_nil, or_false]
    rintro c (rfl | rfl) <;> exact intConst_good _
  · intro p hp
    simp only [updatesOf, List.map_cons, List.map_nil, List.zip_cons_cons, List.zip_nil_right, List.mem_cons, List.not_mem_nil, or_false] at hp
    rcases hp with rfl | rfl <;> exact ⟨by decide, intConst 5, rfl, rfl⟩
  · intro _ b hb
    have : ETree.serBody toySers (TreeHeader.v1 true) [intConst 3, intConst 9]
        (.block [.valDef 1 (.bin .plus (.op .height []) (.placeholder 0 .int))] (.bin .gt (.valUse 1 .int) (.placeholder 1 .int)))
        = .ok [2, 4, 6, 4, 18, 216, 1, 214, 1, 154, 163, 115, 0, 145, 114, 1, 115, 1] := by decide +kernel
    have := hb.symm.trans this
    cases this
    decide

/-- There is no third constant. -/
example (C : EvalCtx (Fin 3) Empty) : Value.strictOp substWorld C .substConstants
    [.collByte substTree, .coll .int [.int 2], .coll .int [.int 7]] = .err .misc := by
  refine C71_refused substWorld C (bwf := fun _ => True) (fun _ b _ _ => b.elim) substTree _ _ _ substTree_parsed [2] [intConst 7] .int rfl ?_ ?_
  · simp only [List.mem_cons, List.not_mem_nil, or_false]
    rintro c rfl
    exact (intConst_good _).2.2
  · intro h
    obtain ⟨_, old, h1, _⟩ := h (2, intConst 7) (by simp [updatesOf])
    cases h1

end Demo
end Verif
