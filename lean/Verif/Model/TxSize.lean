import Verif.Model.Transaction

/-!
# The size estimate of the transaction builder

Source: `ergo-lib/src/wallet/tx_builder.rs:117-135`.
-/

namespace Verif
section
variable {G B T : Type} [DecidableEq G]

/-- `SOUNDNESS_BYTES`, `ergotree-interpreter/src/sigma_protocol.rs:49-54` (`SOUNDNESS_BITS / 8`). -/
def soundnessBytes : Byte := 24#8

/-- The mock proof, `tx_builder.rs:121-123`: a vector of the two bytes `0` and `SOUNDNESS_BYTES`. -/
def mockProof : ProofBytes := .some [0#8, soundnessBytes]

/-- `TxBuilder::estimate_tx_size_bytes`, `tx_builder.rs:118-135`.  Simplification: the result of `build_tx` (line 119) is
the argument. -/
def estimateTxSize (E : Sers G B T) (built : Outcome (UnsignedTransaction G B T)) : Outcome Nat := do
  let u ← built
  let t ← Tx.new E (u.inputs.map fun i => Input.ofUnsigned i mockProof) u.dataInputs u.cands
  let b ← t.ser E
  pure b.length

end
end Verif
