import Verif.Model.Nipopow

/-!
# Codec of proofs of proof-of-work

Source: `ergo-nipopow/src/nipopow_proof.rs:137-185, 239-282`.
-/

namespace Verif
open Merkle
variable {G : Type} [DecidableEq G]

/-- `put_u32(n as u32)`: the low 32 bits of a length, `ergo-nipopow/src/nipopow_proof.rs:141, 144, 148, 150`. -/
def putLen (n : Nat) : Bytes := putU32 (BitVec.ofNat 32 n)

/-- `PoPowHeader::scorex_serialize`, `nipopow_proof.rs:240-253`. -/
def PoPowHeader.ser (pc : PointCodec G) (p : PoPowHeader G) : Outcome Bytes := do
  let hb ← p.header.ser pc
  let pb ← (match p.proof.ser with
    | some b => Outcome.ok b
    | none => Outcome.err)
  pure (putLen hb.length ++ hb ++ putLen p.interlinks.length ++ p.interlinks.flatten ++ putLen pb.length ++ pb)

/-- A parser run on a buffer of its own; what is left of the buffer is dropped, `ergo-nipopow/src/nipopow_proof.rs:240-282`. -/
def inBuffer {α : Type} (q : Parser α) (buf : Bytes) : Parser α := Parser.ofOption ((q buf).map Prod.fst)

/-- `PoPowHeader::scorex_parse`, `nipopow_proof.rs:255-282`. -/
def PoPowHeader.parse (H : HashFn) (pc : PointCodec G) : Parser (PoPowHeader G) := do
  let n ← getU32
  let buf ← readExact n.toNat
  let h ← inBuffer (Header.parse H pc) buf
  let k ← getU32
  let links ← replicateP k.toNat (readExact 32)
  let pn ← getU32
  let pb ← readExact pn.toNat
  let proof ← inBuffer Batch.parse pb
  pure { header := h, interlinks := links, proof := proof }

/-- A value preceded by the number of its bytes, `ergo-nipopow/src/nipopow_proof.rs:141-151`. -/
def withLen : Outcome Bytes → Outcome Bytes
  | .ok b => .ok (putLen b.length ++ b)
  | .err => .err
  | .panic => .panic

/-- The loops of `NipopowProof::scorex_serialize`, `ergo-nipopow/src/nipopow_proof.rs:138-156`. -/
def serAll {α : Type} (f : α → Outcome Bytes) : List α → Outcome Bytes
  | [] => .ok []
  | a :: l => do
    let x ← withLen (f a)
    let xs ← serAll f l
    pure (x ++ xs)

/-- `NipopowProof::scorex_serialize`, `nipopow_proof.rs:138-157`. -/
def NipopowProof.ser (pc : PointCodec G) (p : NipopowProof G) : Outcome Bytes := do
  let a ← serAll (PoPowHeader.ser pc) p.pre
  let b ← withLen (p.suffixHead.ser pc)
  let c ← serAll (Header.ser pc) p.suffixTail
  pure (putU32 p.m ++ putU32 p.k ++ putLen p.pre.length ++ a ++ b ++ putLen p.suffixTail.length ++ c)

/-- `let _size = r.get_u32();`, `nipopow_proof.rs:174`: an error is dropped; an over-long number has used up ten bytes. -/
def skipSize : Parser Unit := fun s =>
  match getU64 s with
  | some (_, r) => some ((), r)
  | none => some ((), s.drop 10)

/-- `NipopowProof::scorex_parse`, `nipopow_proof.rs:159-184`. -/
def NipopowProof.parse (H : HashFn) (pc : PointCodec G) : Parser (NipopowProof G) := do
  let m ← getU32
  let k ← getU32
  let n ← getU32
  let pre ← replicateP n.toNat (do let _ ← getU32; PoPowHeader.parse H pc)
  let _ ← getU32
  let sh ← PoPowHeader.parse H pc
  let t ← getU32
  let st ← replicateP t.toNat (do skipSize; Header.parse H pc)
  pure { m := m, k := k, pre := pre, suffixHead := sh, suffixTail := st }

end Verif
