import Verif.Proofs.WireChain
import Verif.Props.ErgoTree
import Verif.Props.Transaction
import Verif.Props.NipopowCodec
import Verif.Props.Peer
import Verif.Props.Signing

/-!
# C113: the binary forms are those of the protocol

`Verif/Spec/Wire.lean` and `Verif/Spec/WireChain.lean` write the forms down, field by field and code by code.  That reading gives back
what was written (C01, C05, C10, C11, C13, C31, C43, …) leaves the form itself open: a writer and a reader that agree on a wrong order
of fields or a wrong code pass such a claim.
-/

set_option linter.unusedSimpArgs false
set_option linter.unusedVariables false

namespace Verif
open Wire Merkle Sigma
variable {G B T : Type}

/-! ## Numbers -/

/-- C113: unsigned numbers are written in base 128, signed ones with the sign in the lowest bit, numbers of any size in the shortest
two's complement, booleans eight to a byte. -/
theorem C113_numbers :
    (∀ v : BitVec 64, putU64 v = vlq v.toNat) ∧ (∀ v : BitVec 32, putU32 v = vlq v.toNat) ∧ (∀ v : BitVec 16, putU16 v = vlq v.toNat) ∧
    (∀ v : BitVec 64, putI64 v = vlq (zigzag v.toInt)) ∧ (∀ v : BitVec 32, putI32 v = vlq (zigzag32 v.toInt)) ∧
    (∀ v : BitVec 16, putI16 v = vlq (zigzag v.toInt)) ∧ (∀ n : Int, IsTwos n (toSignedBe n)) ∧ (∀ l : List Bool, IsBits l (putBits l)) :=
  ⟨putU64_eq, putU32_eq, putU16_eq, putI64_eq, putI32_eq, putI16_eq, isTwos_toSignedBe, putBits_bits⟩

example : vlq 300 = [172, 2] ∧ zigzag (-2) = 3 ∧ vlq (zigzag32 (-1)) = [1] ∧ zigzag32 (2 ^ 30) = 2 ^ 64 - 2 ^ 31 ∧
    IsTwos (-129) [255, 127] ∧ IsBits [true, false, true] [5] := by
  refine ⟨by simp [vlq], by decide, by simp [vlq, zigzag32, zigzag], by simp [zigzag32, zigzag], ?_, ?_⟩
  · exact isTwos_toSignedBe (-129)
  · have : putBits [true, false, true] = [5] := by decide +kernel
    exact this ▸ putBits_bits [true, false, true]

/-! ## Types -/

/-- C113: what the writer of types writes, exactly; only function types have no form. -/
theorem C113_types_written (t : SType) (b : Bytes) : SType.ser t = some b ↔ TypeForm true t b := type_form t b

example : TypeForm true (.coll (.coll .byte)) [26] ∧ TypeForm true (.option (.tuple [.int, .box])) [36, 64, 99] ∧
    TypeForm true (.tuple [.long, .long]) [89] ∧ TypeForm true (.tuple [.box, .int, .typeVar [84]]) [72, 99, 4, 103, 1, 84] :=
  ⟨(C113_types_written _ _).1 (by decide), (C113_types_written _ _).1 (by decide), (C113_types_written _ _).1 (by decide),
    (C113_types_written _ _).1 (by decide)⟩

/-- C113, partial: a type is written in the form of the protocol.  Missing: types with a pair of two `Short`s inside, for which it fails, see
`C113_short_pair_violates`. -/
theorem C113_types_partial (t : SType) (h : NoShorts t) (b : Bytes) : SType.ser t = some b ↔ TypeForm false t b := by
  rw [type_form, gap_form t h]

example : NoShorts (.tuple [.short, .coll .short]) ∧ SType.ser (.tuple [.short, .coll .short]) = some [63, 15] := by
  refine ⟨?_, by decide⟩
  simp [NoShorts, AllNoShorts]

/-- C113 fails for the pair of two `Short`s: the protocol has the code 87 for it, which the reader knows, but the writer writes the two bytes
63 and 3. -/
theorem C113_short_pair_violates : TypeForm false (.tuple [.short, .short]) [87] ∧ SType.ser (.tuple [.short, .short]) = some [63, 3] ∧
    ¬ TypeForm false (.tuple [.short, .short]) [63, 3] ∧
    SType.parse (fun _ => true) [87] = some (.tuple [.short, .short], []) := by
  refine ⟨?_, by decide, ?_, by decide +kernel⟩
  · simp [TypeForm, prim]
  · simp [TypeForm, prim]

/-! ## Propositions and constants -/

section
variable [DecidableEq G]

/-- C113: propositions. -/
theorem C113_proposition (pc : PointCodec G) (p : SigmaBoolean G) : p.ser pc = sigma pc p := sigma_eq pc p

example : sigma toyCodec (.cth 2 [.dlog 0, .trivial true, .cor [.dlog 1]]) =
    0x98 :: 2 :: 3 :: 0xCD :: (point toyCodec 0 ++ 0xD3 :: 0x97 :: 1 :: 0xCD :: point toyCodec 1) := by
  simp [sigma, sigmas, vlq]

/-- C113, partial: constants are written as their type and their value.  Missing: types with a pair of two `Short`s, `C113_types_partial`. -/
theorem C113_constant_partial (E : Sers G B T) (c : Constant G B) (b : Bytes) (h : c.ser E.pc E.bc = .ok b) (hs : NoShorts c.tpe) :
    ConstForm E (TypeForm false) c b := by
  obtain ⟨t, d, ht, hd, rfl⟩ := const_form E c b h
  exact ⟨t, d, (gap_form _ hs _).1 ht, hd, rfl⟩

example : ∃ b, (⟨.coll .bool, .coll .bool [.bool true, .bool false, .bool true]⟩ : Constant (Fin 3) Empty).ser toySers.pc toySers.bc = .ok b ∧
    b = [13, 3, 5] ∧ NoShorts (.coll .bool) := ⟨_, rfl, by decide +kernel, by simp [NoShorts]⟩

example : ConstForm toySers (TypeForm false) (intConst 3) [4, 6] :=
  C113_constant_partial toySers _ _ (by decide +kernel) (by simp [intConst, NoShorts])

/-! ## Boxes and transactions -/

/-- C113, partial: registers, candidates (with the ids of tokens, or with their places) and boxes.  Missing: the form of the protocol of types
with a pair of two `Short`s, `C113_types_partial`. -/
theorem C113_box_partial (E : Sers G B T) :
    (∀ (v : RegVal G B) b, v.ser E = .ok b → RegForm E (TypeForm true) v b) ∧
    (∀ (ids : Option IdSet) (c : BoxCand G B T) b, c.serWith E ids = .ok b → CandForm E (TypeForm true) ids c b) ∧
    (∀ (x : EBox G B T) b, x.ser E = .ok b → BoxForm E (TypeForm true) x b) :=
  ⟨reg_form E, cand_form E, box_form E⟩

example : ∃ b, (RegVal.tupleExpr [.const (intConst 1), .const (intConst 2)]).ser toySers = .ok b ∧ b = [0x86, 2, 4, 2, 4, 4] :=
  ⟨_, rfl, by decide +kernel⟩

example : ∃ b, (BoxCand.mk 20000 8 (some [(tid 2, 9)]) [] 3 : BoxCand (Fin 3) Empty Byte).serWith toySers (some [tid 1, tid 2]) = .ok b ∧
    b = [0xA0, 0x9C, 1, 8, 3, 1, 1, 9, 0] := ⟨_, rfl, by decide +kernel⟩

/-- C113, partial: transactions; the ids of tokens are those of the outputs, each once, in the order in which they appear, and the bytes to sign
have the same form with empty proofs.  Missing: as for `C113_box_partial`. -/
theorem C113_transaction_partial (E : Sers G B T) (t : Tx G B T) (b : Bytes) :
    (t.ser E = .ok b → TxForm E (TypeForm true) t.inputs t.dataInputs t.cands b) ∧
    (t.bytesToSign E = .ok b →
      TxForm E (TypeForm true) (t.inputs.map fun i => ⟨i.boxId, ⟨.empty, i.proof.extension⟩⟩) t.dataInputs t.cands b) :=
  ⟨tx_form E _ _ _ b, tx_form E _ _ _ b⟩

example : ∃ t b, t.cands = exCands ∧ Tx.ser toySers t = .ok b ∧ firsts (tokenIds exCands) = [tid 1, tid 2] := by
  obtain ⟨t, _, _, h2, h3, h4⟩ := C11_constructor_total toySers _ _ toySers_good _ _ _ exParts_good
  refine ⟨t, ?_⟩
  obtain ⟨b, hb⟩ : ∃ b, serTxParts toySers exInputs (some [tid 3]) exCands = .ok b := ⟨_, rfl⟩
  exact ⟨b, h4, by unfold Tx.ser; rw [h2, h3, h4]; exact hb, by decide⟩

/-- C113: reduced transactions. -/
theorem C113_reduced_partial (E : Sers G B T) (r : ReducedTx G B T) (b : Bytes) (h : r.ser E = .ok b) : ReducedForm E r b := reduced_form E r b h

/-- Two inputs. -/
def reducedExample : ReducedTx (Fin 3) Empty Byte :=
  { tx := ⟨tid 0, [⟨tid 9, []⟩, ⟨tid 8, []⟩], none, exCands⟩, cost := 7, inputs := [⟨.dlog 1, 300, []⟩, ⟨.trivial true, 2, []⟩] }

example : ∃ b, reducedExample.ser toySers = .ok b := by
  have : (match reducedExample.ser toySers with | .ok _ => true | _ => false) = true := by decide +kernel
  cases h : reducedExample.ser toySers with
  | ok b => exact ⟨b, rfl⟩
  | err => rw [h] at this; cases this
  | panic => rw [h] at this; cases this

/-! ## Scripts -/

/-- C113, partial: expressions.  Missing: as for `C113_box_partial`. -/
theorem C113_expression_partial (E : Sers G B T) (e : Expr G B) (b : Bytes) (w : Expr.WStore G B) (h : Expr.ser E e none = .ok (b, w)) :
    ExprForm E (TypeForm true) e b := (expr_form E e b w h).2

example : ∃ b w, Expr.ser toySers exprExample none = .ok (b, w) ∧ 9 < b.length := ⟨_, _, rfl, by decide +kernel⟩

/-- C113, partial: trees, for the versions a header byte has room for.  Missing: as for `C113_box_partial`. -/
theorem C113_tree_partial (E : Sers G B T) (t : ETree G B) (b : Bytes) (h : t.ser E = .ok b)
    (hv : ∀ g C e, t = .parsed g C e → g.version.toNat < 8) : TreeForm E (TypeForm true) t b := tree_form E t b h hv

example : TreeForm toySers (TypeForm true) treeExample [25, 18, 2, 4, 6, 4, 10, 216, 1, 214, 1, 154, 163, 115, 0, 145, 114, 1, 115, 1] := by
  refine C113_tree_partial toySers _ _ (by decide +kernel) ?_
  intro g C e h
  cases h
  decide

/-- C113: the codes of the operations. -/
theorem C113_codes : (∀ o : SOp, o.code = BitVec.ofNat 8 (opCode o)) ∧ ∀ k : BinK, k.code = BitVec.ofNat 8 (binCode k) :=
  ⟨op_code, bin_code⟩

example : opCode .height = 163 ∧ binCode .gt = 145 := ⟨rfl, rfl⟩

/-! ## Headers and NiPoPoW proofs -/

/-- C113: headers without the solution (what is hashed for the puzzle), field by field. -/
theorem C113_header_without_pow (h : Header G) : h.serWithoutPow = headerForm h := header_form h

example : headerForm headerV1 ≠ headerForm headerV2 := by
  rw [← header_form, ← header_form]; decide +kernel

/-- C113: solutions and headers. -/
theorem C113_header (pc : PointCodec G) :
    (∀ (v : Byte) (s : AutolykosSolution G) b, s.ser pc v = .ok b → SolutionForm pc v s b) ∧
    (∀ (h : Header G) b, h.ser pc = .ok b → HeaderForm pc h b) :=
  ⟨solution_form pc, header_full pc⟩

example : ∃ b c, headerV1.ser toyCodec = .ok b ∧ headerV2.ser toyCodec = .ok c := ⟨_, _, rfl, rfl⟩

/-- C113: Merkle proofs of many leaves. -/
theorem C113_batch (p : Batch) (b : Bytes) (h : p.ser = some b) : BatchForm p b := batch_form p b h

example : ∃ b, (Batch.mk [⟨3, List.replicate 32 7⟩] [⟨none, .left⟩, ⟨some (List.replicate 32 9), .right⟩]).ser = some b ∧ b.length = 110 :=
  ⟨_, rfl, by decide +kernel⟩

/-- C113: NiPoPoW headers and proofs. -/
theorem C113_nipopow (pc : PointCodec G) :
    (∀ (p : PoPowHeader G) b, p.ser pc = .ok b → PopowForm pc p b) ∧ (∀ (p : NipopowProof G) b, p.ser pc = .ok b → NipopowForm pc p b) :=
  ⟨popow_form pc, nipopow_form pc⟩

example : ∃ b, (NipopowProof.mk 6 10 [storedPoPow] storedPoPow [headerV2]).ser toyCodec = .ok b := ⟨_, rfl⟩

/-! ## Signatures -/

omit [DecidableEq G] in
/-- C113: signatures. -/
theorem C113_signature {q : Nat} [NeZero q] (hq : q ≤ 2 ^ 256) (t : Unchecked G q) (b : Bytes) (h : serializeSig t = .ok b) :
    SigForm t true b := sig_form hq t true b h

/-- Two of three leaves: the polynomial has degree one. -/
example : ∃ b, serializeSig (.conj (.thr 2 ⟨[⟨0, 0, 0⟩, ⟨1, 2, 3⟩], 1⟩) ⟨List.replicate 24 5, rfl⟩
    [.leaf (.dlog 1) none ⟨List.replicate 24 1, rfl⟩ 1, .leaf (.dlog 1) none ⟨List.replicate 24 1, rfl⟩ 2,
     .leaf (.dlog 2) none ⟨List.replicate 24 1, rfl⟩ 0] : Unchecked (Fin 3) 3) = .ok b ∧ b.length = 24 + 24 + 3 * 32 := ⟨_, rfl, by decide +kernel⟩

/-- C113: what is hashed for the challenge of a signature; the bytes of a leaf are those of a tree with the proposition as its only constant. -/
theorem C113_fiat_shamir {q : Nat} (E : Sers G B T) (t : Unchecked G q) (b : Bytes) (h : fsUnchecked E.pc t = .ok b) : FsForm E t b :=
  fs_form E t b h

example : ∃ b, fsUnchecked toySers.pc (.conj (.thr 1 ⟨[⟨0, 0, 0⟩], 0⟩) ⟨List.replicate 24 5, rfl⟩
    [.leaf (.dlog 1) (some (.dlog 2)) ⟨List.replicate 24 1, rfl⟩ 1] : Unchecked (Fin 3) 3) = .ok b ∧ b.take 6 = [0, 2, 1, 0, 1, 1] :=
  ⟨_, rfl, by decide +kernel⟩

end

/-! ## Peers -/

/-- C113: what a peer says about itself. -/
theorem C113_peer (s : PeerSpec) (b : Bytes) (h : s.ser = some b) : PeerForm s b := peer_form s b h

example : peerExample.ser = some
    [2, 97, 98, 5, 0, 20, 0, 1, 4, 10, 0, 0, 1, 0xC6, 0x46, 1, 2, 7, 127, 0, 0, 1, 0xFF, 0xFF, 3] := by decide +kernel

end Verif
