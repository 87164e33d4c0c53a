import Verif.Proofs.Signing

set_option linter.unusedSimpArgs false
set_option linter.unusedVariables false

/-!
# The bytes of reduced transactions
-/

namespace Verif
open Verif.Sigma Verif.Spec

section
variable {G B T : Type} [DecidableEq G]

namespace ReducedTx

theorem parseInput_ser (E : Sers G B T) (r : ReducedInput G B) (hb : r.prop.Bounded) (inp : Input G B) (rest : Bytes) :
    parseInput E inp (serInput E.pc r ++ rest)
      = some (({ prop := r.prop, cost := r.cost, extension := inp.proof.extension },
               { boxId := inp.boxId, extension := inp.proof.extension }), rest) := by
  unfold parseInput serInput
  rw [List.append_assoc, Parser.bind_some (SigmaBoolean.parse_ser E.pc r.prop hb _), Parser.bind_some (getU64_put _ _)]
  rfl

/-- What the reader makes of the reduced inputs: propositions and costs from the bytes, the rest from the message. -/
def pairs (ins : List (Input G B)) (rs : List (ReducedInput G B)) : List (ReducedInput G B × UnsignedInput G B) :=
  List.zipWith (fun inp r => ({ prop := r.prop, cost := r.cost, extension := inp.proof.extension },
    { boxId := inp.boxId, extension := inp.proof.extension })) ins rs

theorem parseInputs_ser (E : Sers G B T) : ∀ (ins : List (Input G B)) (rs : List (ReducedInput G B)),
    ins.length = rs.length → (∀ r ∈ rs, r.prop.Bounded) → ∀ rest,
      parseInputs E ins (rs.flatMap (serInput E.pc) ++ rest) = some (pairs ins rs, rest)
  | [], [], _, _, rest => rfl
  | [], _ :: _, h, _, _ => by simp at h
  | _ :: _, [], h, _, _ => by simp at h
  | inp :: ins, r :: rs, h, hb, rest => by
    simp only [parseInputs, List.flatMap_cons, List.append_assoc]
    rw [Parser.bind_some (parseInput_ser E r (hb r (by simp)) inp _),
      Parser.bind_some (parseInputs_ser E ins rs (by simpa using h) (fun x hx => hb x (by simp [hx])) rest)]
    rfl

end ReducedTx

/-- Writing a reduced transaction with good parts, and what reading the bytes gives. -/
theorem ReducedTx.rt (E : Sers G B T) {bwf : B → Prop} {twf : T → Prop} (h : GoodSers E bwf twf) (r : ReducedTx G B T)
    (hg : GoodParts E.utf8 bwf twf (r.tx.inputs.map UnsignedInput.toSign) r.tx.dataInputs r.tx.cands)
    (hl : r.inputs.length = r.tx.inputs.length) (hb : ∀ x ∈ r.inputs, x.prop.Bounded)
    (hsize : ∀ m, r.tx.bytesToSign E = .ok m → m.length < 2 ^ 32) :
    ∃ bs u, ReducedTx.ser E r = .ok bs ∧ UnsignedTransaction.new E r.tx.inputs r.tx.dataInputs r.tx.cands = .ok u ∧
      ∀ rest, ReducedTx.parse E (bs ++ rest) = some
        ({ tx := u, cost := r.cost,
           inputs := List.zipWith (fun inp x => { prop := x.prop, cost := x.cost, extension := inp.extension })
             r.tx.inputs r.inputs }, rest) := by
  obtain ⟨t, ht⟩ := Tx.new_ok E h hg
  obtain ⟨t1, t2, t3, t4, t5⟩ := Tx.new_spec E ht
  have gt : GoodTx E bwf twf t := ⟨by rw [t1, t2, t3]; exact hg, by rw [t1, t2, t3]; exact ht⟩
  obtain ⟨m, hm, hp⟩ := Tx.rt E h t gt
  have hm' : Tx.bytesToSign E t = .ok m := by
    rw [Tx.bytesToSign_eq, t1, toSign_toSign, ← t1]; exact hm
  have hbytes : r.tx.bytesToSign E = .ok m := by
    unfold UnsignedTransaction.bytesToSign UnsignedTransaction.toTx
    rw [ht]; exact hm'
  have hmlen := hsize m hbytes
  have hu : UnsignedTransaction.new E r.tx.inputs r.tx.dataInputs r.tx.cands
      = .ok { txId := E.H m, inputs := r.tx.inputs, dataInputs := r.tx.dataInputs, cands := r.tx.cands } := by
    unfold UnsignedTransaction.new
    have : UnsignedTransaction.bytesToSign E
        { txId := List.replicate 32 0, inputs := r.tx.inputs, dataInputs := r.tx.dataInputs, cands := r.tx.cands } = .ok m := hbytes
    simp only [this, Outcome.bind_ok, Outcome.pure_eq]
  have hcount : putCount32 m.length = .ok (putU32 (BitVec.ofNat 32 m.length)) := by
    unfold putCount32; rw [if_pos hmlen]
  refine ⟨putU32 (BitVec.ofNat 32 m.length) ++ m ++ r.inputs.flatMap (ReducedTx.serInput E.pc) ++ putU32 r.cost, _, ?_, hu, ?_⟩
  · unfold ReducedTx.ser
    simp only [hbytes, Outcome.bind_ok, hcount, Outcome.pure_eq]
  · intro rest
    unfold ReducedTx.parse
    simp only [List.append_assoc]
    rw [Parser.bind_some (getU32_put _ _), toNat_ofNat32 hmlen, Parser.bind_some (readExact_append' _ _ rfl)]
    have hp0 := hp []
    rw [List.append_nil] at hp0
    simp only [hp0]
    have hlen : t.inputs.length = r.inputs.length := by rw [t1, List.length_map, hl]
    rw [Parser.bind_some (ReducedTx.parseInputs_ser E t.inputs r.inputs hlen hb _)]
    have e1 : (ReducedTx.pairs t.inputs r.inputs).map Prod.snd = r.tx.inputs := by
      unfold ReducedTx.pairs
      rw [t1]
      apply List.ext_getElem
      · simp [hl]
      · intro i h1 h2
        simp only [List.getElem_map, List.getElem_zipWith]
        rfl
    have e2 : (ReducedTx.pairs t.inputs r.inputs).map Prod.fst
        = List.zipWith (fun inp x => { prop := x.prop, cost := x.cost, extension := inp.extension }) r.tx.inputs r.inputs := by
      unfold ReducedTx.pairs
      rw [t1]
      apply List.ext_getElem
      · simp [hl]
      · intro i h1 h2
        simp only [List.getElem_map, List.getElem_zipWith]
        rfl
    rw [e1, e2, t2, t3, hu]
    simp only [Outcome.toOption]
    rw [Parser.bind_some (Parser.ofOption_some _ _), Parser.bind_some (getU32_put _ _)]
    rfl

end
end Verif
