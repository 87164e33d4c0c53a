import Verif.Proofs.TxSize
import Verif.Props.Signing

set_option linter.unusedSimpArgs false
set_option linter.unusedVariables false

/-!
# C106 – the size of a proof and of a signed transaction
-/

namespace Verif
open Verif.Sigma Verif.Spec

section
variable {G B T : Type} {q : Nat} [DecidableEq G] [AddCommGroup G] [Module (ZMod q) G]

/-- C106: the size of a proof is fixed by its proposition: it depends neither on the secrets, nor on the message, nor on the
randomness, nor on the hints. -/
theorem C106_proof_size (E : ProverEnv G q) (sb : SigmaBoolean G) (message sig : Bytes)
    (h : generateProof E sb message = .ok sig) : sig.length = proofSize sb := generateProof_size E sb message sig h

/-- A threshold proposition, its proof and its size. -/
example : (match generateProof toyProver toyProp [7, 7] with | .ok s => s.length | _ => 0) = 24 + 24 + 32 + (24 + 2 * 32) + 2 * 32 ∧
    proofSize toyProp = 232 := by
  decide +kernel

/-- C106: a signed transaction is larger than the bytes to sign by what the proofs of its inputs take: their bytes and the
bytes of their lengths beyond the one byte of an empty proof. -/
theorem C106_signed_size (reduce : Reduce G B T) (P : WalletP G q) (E : Sers G B T) (S : StateCtx G)
    (u : UnsignedTransaction G B T) (c : TxBoxes G B T) (hints : Option (TxHints G q)) (t : Tx G B T) (m : Bytes)
    (hm : u.bytesToSign E = .ok m) (ht : signTransaction reduce P E S u c hints = .ok t) (sbs : List (SigmaBoolean G))
    (hl : sbs.length = u.inputs.length)
    (hp : ∀ i inp sb, u.inputs[i]? = some inp → sbs[i]? = some sb →
      ∃ ext, inputProp reduce S (u.spend E) c i inp.boxId = .ok (sb, ext))
    (hs : ∀ sb ∈ sbs, proofSize sb < 65536) :
    ∃ bs, t.ser E = .ok bs ∧ bs.length = m.length + (sbs.map fun sb => proofCost (proofSize sb)).sum :=
  signed_size hm ht sbs hl hp hs

/-- C106, what holds of the estimate: it is given for every transaction that can be built, and only then; it is
the size without proofs and two bytes per input; and a transaction signed with proofs for all of its inputs is never smaller than the estimate.

Missing with respect to C106: it is not the size of the signed transaction (`C106_estimate_violates`). -/
theorem C106_estimate_partial (reduce : Reduce G B T) (P : WalletP G q) (E : Sers G B T) (S : StateCtx G)
    (u : UnsignedTransaction G B T) (m : Bytes) (hm : u.bytesToSign E = .ok m) :
    (∀ built n, estimateTxSize E built = .ok n → ∃ u, built = .ok u) ∧
    ∃ n, estimateTxSize E (.ok u) = .ok n ∧ n = m.length + 2 * u.inputs.length ∧
      ∀ (c : TxBoxes G B T) (hints : Option (TxHints G q)) (t : Tx G B T) (sbs : List (SigmaBoolean G)),
        signTransaction reduce P E S u c hints = .ok t → sbs.length = u.inputs.length →
        (∀ i inp sb, u.inputs[i]? = some inp → sbs[i]? = some sb →
          (∃ ext, inputProp reduce S (u.spend E) c i inp.boxId = .ok (sb, ext)) ∧ (∀ b, sb ≠ .trivial b) ∧
            proofSize sb < 65536) →
        ∃ bs, t.ser E = .ok bs ∧ n ≤ bs.length := by
  refine ⟨fun built n h => ?_, _, estimate_ok E hm, rfl, fun c hints t sbs ht hl hp => ?_⟩
  · unfold estimateTxSize at h
    obtain ⟨u, hu, _⟩ := Outcome.bind_eq_ok.1 h
    exact ⟨u, hu⟩
  · have hall : ∀ sb ∈ sbs, (∀ b, sb ≠ .trivial b) ∧ proofSize sb < 65536 := by
      intro sb hsb
      obtain ⟨i, hi⟩ := List.mem_iff_getElem?.1 hsb
      have hlt : i < u.inputs.length := by rw [← hl]; exact (List.getElem?_eq_some_iff.1 hi).1
      exact (hp i _ sb (List.getElem?_eq_getElem hlt) hi).2
    obtain ⟨bs, h1, h2⟩ := signed_size hm ht sbs hl (fun i inp sb a b => (hp i inp sb a b).1) (fun sb h => (hall sb h).2)
    refine ⟨bs, h1, ?_⟩
    have : ∀ (l : List (SigmaBoolean G)), (∀ sb ∈ l, ∀ b, sb ≠ .trivial b) →
        2 * l.length ≤ (l.map fun sb => proofCost (proofSize sb)).sum := by
      intro l
      induction l with
      | nil => intro _; simp
      | cons a l ih =>
        intro h
        have h1 := ih fun sb hsb => h sb (List.mem_cons_of_mem _ hsb)
        have h2 : 24 ≤ proofSize a := by
          cases a with
          | trivial b => exact absurd rfl (h _ (by simp) b)
          | _ => rw [proofSize]; omega; simp
        have h3 : 2 ≤ proofCost (proofSize a) := by unfold proofCost; omega
        rw [List.map_cons, List.sum_cons, List.length_cons]
        omega
    have := this sbs fun sb h => (hall sb h).1
    rw [h2, ← hl]
    omega

/-- Finding for C106: the estimate of the transaction builder assumes that every input is signed with one key, and is too
small by 54 bytes for each of them: the mock proof consists of two bytes, the proof of 56. -/
theorem C106_estimate_violates (reduce : Reduce G B T) (P : WalletP G q) (E : Sers G B T) (S : StateCtx G)
    (u : UnsignedTransaction G B T) (c : TxBoxes G B T) (hints : Option (TxHints G q)) (t : Tx G B T)
    (ht : signTransaction reduce P E S u c hints = .ok t)
    (hp : ∀ i inp, u.inputs[i]? = some inp → ∃ pk ext, inputProp reduce S (u.spend E) c i inp.boxId = .ok (.dlog pk, ext)) :
    ∃ n bs, estimateTxSize E (.ok u) = .ok n ∧ t.ser E = .ok bs ∧ bs.length = n + 54 * u.inputs.length := by
  obtain ⟨m, _, hm, _⟩ := signTransaction_spec.1 ht
  have hex : ∀ i : Fin u.inputs.length, ∃ pk : G, ∃ ext,
      inputProp reduce S (u.spend E) c i (u.inputs[i]).boxId = .ok (.dlog pk, ext) :=
    fun i => hp i _ (List.getElem?_eq_getElem i.2)
  choose pk hpk using hex
  obtain ⟨bs, h1, h2⟩ := signed_size hm ht (List.ofFn fun i => SigmaBoolean.dlog (pk i)) (by simp)
    (by
      intro i inp sb hi hsb
      have hlt := (List.getElem?_eq_some_iff.1 hi).1
      rw [List.getElem?_eq_getElem hlt, Option.some.injEq] at hi
      rw [List.getElem?_ofFn, dif_pos hlt, Option.some.injEq] at hsb
      rw [← hi, ← hsb]
      exact hpk ⟨i, hlt⟩)
    (by
      intro sb hsb
      obtain ⟨i, rfl⟩ := List.mem_ofFn.1 hsb
      simp [proofSize, responseSize])
  refine ⟨_, bs, estimate_ok E hm, h1, ?_⟩
  have : (List.ofFn fun i => SigmaBoolean.dlog (pk i)).map (fun sb => proofCost (proofSize sb)) =
      List.replicate u.inputs.length 56 := by
    rw [List.map_ofFn]
    have : ((fun sb : SigmaBoolean G => proofCost (proofSize sb)) ∘ fun i => SigmaBoolean.dlog (pk i)) = fun _ => 56 := by
      funext i; simp [proofSize, responseSize, proofCost, lengthSize]
    rw [this, List.ofFn_const]
  rw [h2, this, List.sum_replicate, smul_eq_mul]
  omega

end

/-- Finding for C106: a proof of 65536 bytes or more does not survive the byte form; its length is cut to 16 bits. -/
theorem C106_long_proof_violates (b rest : Bytes) (h : 65536 ≤ b.length) :
    ProofBytes.parse ((ProofBytes.some b).ser ++ rest) ≠ some (.some b, rest) := by
  intro hx
  have hs : (ProofBytes.some b).ser ++ rest = putU16 (BitVec.ofNat 16 b.length) ++ (b ++ rest) := by
    rw [ProofBytes.ser, List.append_assoc]
  rw [hs, ProofBytes.parse, Parser.bind_some (getU16_put _ _)] at hx
  split at hx
  · cases hx
  · have hl : (BitVec.ofNat 16 b.length).toNat < 65536 := (BitVec.ofNat 16 b.length).isLt
    cases hr : readExact (BitVec.ofNat 16 b.length).toNat (b ++ rest) with
    | none => rw [Parser.bind_none hr] at hx; cases hx
    | some p =>
      obtain ⟨x, y⟩ := p
      rw [Parser.bind_some hr] at hx
      have h1 : x.length = (BitVec.ofNat 16 b.length).toNat := by
        unfold readExact at hr
        split at hr
        · cases hr
          rw [List.length_take]; omega
        · cases hr
      cases hx
      omega

/-- A proposition with such a proof: 2295 responses under an AND of ANDs. -/
example : 65536 ≤ proofSize (.cand (List.replicate 9 (.cand (List.replicate 255 (.dlog (2 : ZMod 3)))))) := by
  decide +kernel

/-! ## A case -/

/-- Every script asks for the signature of the key `2`. -/
def tsReduce : Reduce (ZMod 3) Empty Byte := fun _ _ => .ok (.dlog 2)

/-- Sign a transaction with two inputs: its size, and the estimate. -/
def tsRun : Outcome (Nat × Nat) := do
  let u ← sgTx 5
  let c ← TxBoxes.new (u.spend sgSers) (sgBoxes 8) [sgBox 3 8]
  let t ← signTransaction tsReduce sgWallet sgSers sgState u c none
  let b ← t.ser sgSers
  let n ← estimateTxSize sgSers (.ok u)
  pure (b.length, n)

/-- The transaction has 108 bytes more than estimated. -/
example : (match tsRun with | .ok (a, b) => a == b + 108 && b > 100 | _ => false) = true := by decide +kernel

/-- The hypothesis on the propositions holds there. -/
example (u : UnsignedTransaction (ZMod 3) Empty Byte) (hu : sgTx 5 = .ok u) (c : TxBoxes (ZMod 3) Empty Byte)
    (hc : TxBoxes.new (u.spend sgSers) (sgBoxes 8) [sgBox 3 8] = .ok c) (i : Nat) (inp : UnsignedInput (ZMod 3) Empty)
    (hi : u.inputs[i]? = some inp) :
    ∃ pk ext, inputProp tsReduce sgState (u.spend sgSers) c i inp.boxId = .ok (.dlog pk, ext) := by
  obtain ⟨h1, h2, h3, _⟩ := unsigned_new_spec _ hu
  have hlt : i < (sgInputs 5).length := by rw [← h1]; exact (List.getElem?_eq_some_iff.1 hi).1
  obtain ⟨ctx, hctx⟩ := (C64_context sgSers sgState _ _ _ u hu _ _ c hc i).1.1 hlt
  obtain ⟨c1, c2, c3, c4⟩ := TxBoxes.new_spec hc
  have : ∃ b, c.get inp.boxId = some b := by
    have := c3 inp.boxId (by
      show inp.boxId ∈ u.inputs.map UnsignedInput.boxId
      exact List.mem_map_of_mem (List.mem_of_getElem? hi))
    exact this
  obtain ⟨b, hb⟩ := this
  refine ⟨2, ctx.extension, ?_⟩
  unfold inputProp
  rw [hb, hctx]
  rfl

end Verif
