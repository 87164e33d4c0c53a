import Verif.Proofs.JsonFormTx

set_option linter.unusedSimpArgs false
set_option linter.unusedVariables false

/-!
# Headers, proofs and hints: what is written has the form
-/

namespace Verif
open Spec Json Merkle

section
variable {G : Type} [DecidableEq G]

theorem writePoint_form (pc : PointCodec G) (g : G) : writePoint pc g = hex (putPoint pc g) := strHex_eq _

theorem writeSolution_form (pc : PointCodec G) (s : AutolykosSolution G) : writeSolution pc s =
    fields [("pk", hex (putPoint pc s.minerPk)), ("w", orNull (s.onetimePk.map fun g => hex (putPoint pc g))), ("n", hex s.nonce),
      ("d", orNull (s.distance.map fun i => .str (toString i).toList))] := by
  have h1 : writeOpt (writePoint pc) s.onetimePk = orNull (s.onetimePk.map fun g => hex (putPoint pc g)) := by
    cases s.onetimePk with
    | none => rfl
    | some g => exact writePoint_form pc g
  have h2 : writeDistance s.distance = orNull (s.distance.map fun i => .str (toString i).toList) := by
    cases s.distance with
    | none => rfl
    | some i => simp [writeDistance, writeOpt, orNull, bigText_eq]
  unfold writeSolution
  rw [h1, h2, writePoint_form, strHex_eq]
  simp only [fields, List.map_cons, List.map_nil]
  rfl

theorem writeHeader_form (pc : PointCodec G) (h : Header G) : writeHeader pc h = headerForm pc h := by
  unfold writeHeader headerFields headerForm writeVotes
  rw [writeSolution_form]
  simp only [strHex_eq]
  conv_rhs => rw [fields]
  simp only [List.map_cons, List.map_nil, List.cons_append, List.nil_append]
  rfl

theorem writeSide_form (s : Side) : writeSide s = sideForm s := by cases s <;> rfl

theorem levelText_form (l : LevelNode) : Json.str (levelText l.hash) = levelForm l := by
  unfold levelText levelForm
  cases l.hash with
  | none => simp only [lit]; rfl
  | some b => exact strHex_eq b

theorem writeLevel_form (l : LevelNode) : writeLevel l = .arr [levelForm l, sideForm l.side] := by
  unfold writeLevel
  rw [levelText_form, writeSide_form]

theorem writeProof_form (p : Proof) : writeProof p =
    fields [("leafData", hex p.leafData), ("levels", .arr (p.levels.map fun l => .arr [levelForm l, sideForm l.side]))] := by
  unfold writeProof
  rw [strHex_eq, show writeLevel = fun l => Json.arr [levelForm l, sideForm l.side] from funext writeLevel_form]
  simp only [fields, List.map_cons, List.map_nil]
  rfl

theorem writeIndexed_form (x : Indexed) : writeIndexed x = fields [("index", asNumber x.index), ("digest", hex x.hash)] := by
  unfold writeIndexed
  rw [strHex_eq]
  simp only [fields, List.map_cons, List.map_nil]
  rfl

theorem writeBatchLevel_form (l : LevelNode) : writeBatchLevel l = fields [("digest", levelForm l), ("side", sideForm l.side)] := by
  unfold writeBatchLevel
  rw [levelText_form, writeSide_form]
  simp only [fields, List.map_cons, List.map_nil]
  rfl

theorem writeBatch_form (p : Batch) : writeBatch p = batchForm p := by
  unfold writeBatch batchForm
  rw [show writeIndexed = fun x => fields [("index", asNumber x.index), ("digest", hex x.hash)] from funext writeIndexed_form,
    show writeBatchLevel = fun l => fields [("digest", levelForm l), ("side", sideForm l.side)] from funext writeBatchLevel_form]
  conv_rhs => rw [fields]
  simp only [List.map_cons, List.map_nil]
  rfl

theorem writePoPow_form (pc : PointCodec G) (p : PoPowHeader G) : writePoPow pc p = popowForm pc p := by
  unfold writePoPow popowForm
  rw [writeHeader_form, writeBatch_form, show (fun b => Json.str (hexEnc b)) = hex from funext strHex_eq]
  conv_rhs => rw [fields]
  simp only [List.map_cons, List.map_nil]
  rfl

theorem writeNipopow_form (pc : PointCodec G) (p : NipopowProof G) : writeNipopow pc p =
    fields [("m", asNumber p.m.toNat), ("k", asNumber p.k.toNat), ("prefix", .arr (p.pre.map (popowForm pc))),
      ("suffixHead", popowForm pc p.suffixHead), ("suffixTail", .arr (p.suffixTail.map (headerForm pc)))] := by
  unfold writeNipopow
  rw [writePoPow_form, show writePoPow pc = popowForm pc from funext (writePoPow_form pc),
    show writeHeader pc = headerForm pc from funext (writeHeader_form pc)]
  conv_rhs => rw [fields]
  simp only [List.map_cons, List.map_nil]
  rfl

/-! ## Hints -/

section
variable {q : Nat}
open Sigma

theorem writeSBs_map (pc : PointCodec G) : ∀ l : List (SigmaBoolean G), writeSBs pc l = l.map (writeSB pc)
  | [] => by rw [writeSBs]; rfl
  | a :: l => by rw [writeSBs, writeSBs_map pc l]; rfl

theorem writeMsg_form (pc : PointCodec G) (m : Msg G) : writeMsg pc m = (msgForm pc m).map fun p => (p.1.toList, p.2) := by
  cases m <;> simp only [writeMsg, msgForm, writePoint_form, List.map_cons, List.map_nil, lit] <;> rfl

end
end
end Verif
