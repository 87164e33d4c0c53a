import Verif.Model.Out
import Verif.Model.FMap

/-!
# Context extensions and spending proofs

Source: `ergotree-interpreter/src/sigma_protocol/prover/{context_extension,prover_result}.rs`,
`ergo-lib/src/chain/transaction/input/prover_result.rs`.
-/

namespace Verif

/-- `ContextExtension`, `ergotree-interpreter/src/sigma_protocol/prover/context_extension.rs:14-18`: an `IndexMap<u8, Constant>`, in insertion
order. -/
abbrev Extension (G B : Type) := FMap Byte (Constant G B)

namespace Extension
variable {G B T : Type}

/-- One entry, `context_extension.rs:39-42`. -/
def serEntry [DecidableEq G] (E : Sers G B T) (p : Byte × Constant G B) : Outcome Bytes := do
  let b ← p.2.ser E.pc E.bc
  pure (putU8 p.1 ++ b)

/-- `sigma_serialize`, `context_extension.rs:36-44`; `len() as u8` truncates. -/
def ser [DecidableEq G] (E : Sers G B T) (m : Extension G B) : Outcome Bytes := do
  let bs ← serMany (serEntry E) m
  pure (putU8 (BitVec.ofNat 8 m.length) ++ bs)

/-- One entry, `context_extension.rs:50-51`. -/
def getEntry (E : Sers G B T) : Parser (Byte × Constant G B) := do
  let i ← getU8
  let c ← Constant.parse E.utf8 E.pc E.bc
  pure (i, c)

/-- The inserts of the loop of `sigma_parse`, `context_extension.rs:49-52`. -/
def insertAll (m : Extension G B) : List (Byte × Constant G B) → Extension G B
  | [] => m
  | p :: l => insertAll (m.insert p.1 p.2) l

/-- `sigma_parse`, `context_extension.rs:46-54`.  The loop reads an entry and inserts it; here all entries are read, then
inserted in the same order. -/
def parse (E : Sers G B T) : Parser (Extension G B) := do
  let n ← getU8
  let l ← replicateP n.toNat (getEntry E)
  pure (insertAll [] l)

end Extension

/-- `ProofBytes`, `ergotree-interpreter/src/sigma_protocol/prover/prover_result.rs:12-18`. -/
inductive ProofBytes where
  | empty
  | some (b : Bytes)
  deriving DecidableEq, Repr

namespace ProofBytes

/-- `From<Vec<u8>>`, `prover_result.rs:39-47`. -/
def ofBytes (b : Bytes) : ProofBytes := if b.isEmpty then empty else some b

/-- `to_bytes` / `AsRef<[u8]>`, `prover_result.rs:22-27, 69-76`. -/
def toBytes : ProofBytes → Bytes
  | empty => []
  | some b => b

/-- `sigma_serialize`, `prover_result.rs:79-88`; `bytes.len() as u16` truncates. -/
def ser : ProofBytes → Bytes
  | empty => putU16 0
  | some b => putU16 (BitVec.ofNat 16 b.length) ++ b

/-- `sigma_parse`, `prover_result.rs:90-99`. -/
def parse : Parser ProofBytes := do
  let n ← getU16
  if n = 0 then pure empty
  else do
    let b ← readExact n.toNat
    pure (some b)

end ProofBytes

/-- `ProverResult`, `ergo-lib/src/chain/transaction/input/prover_result.rs:17-32`. -/
structure ProverResult (G B : Type) where
  proof : ProofBytes
  extension : Extension G B

namespace ProverResult
variable {G B T : Type}

/-- `sigma_serialize`, `input/prover_result.rs:44-48`. -/
def ser [DecidableEq G] (E : Sers G B T) (p : ProverResult G B) : Outcome Bytes := do
  let e ← p.extension.ser E
  pure (p.proof.ser ++ e)

/-- `sigma_parse`, `input/prover_result.rs:49-53`. -/
def parse (E : Sers G B T) : Parser (ProverResult G B) := do
  let proof ← ProofBytes.parse
  let extension ← Extension.parse E
  pure { proof := proof, extension := extension }

end ProverResult
end Verif
