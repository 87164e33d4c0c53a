import Verif.Model.SigmaBoolean
import Verif.Model.Hash
import Verif.Model.Gf
import Mathlib.Data.ZMod.Basic
import Mathlib.Algebra.Field.ZMod
import Mathlib.Algebra.Module.Basic

/-!
# Proof trees, their byte form, and the verifier

Source: `ergotree-interpreter/src/sigma_protocol/` (`challenge.rs`, `wscalar.rs`, `dlog_protocol.rs`, `dht_protocol.rs`,
`unchecked_tree.rs`, `sig_serializer.rs`, `fiat_shamir.rs`, `verifier.rs`, `gf2_192.rs`).

The curve arithmetic of the `k256` crate is not modelled.  Group elements are an abstract additive group `G` on which
the scalars `ZMod q` act (the code writes the group multiplicatively: its `*`, `inverse`, `exponentiate` are `+`, `-`
and `•` here); `q` is the order of the group.
-/

namespace Verif.Sigma
open Verif

/-- The parts of the environment the protocol code uses: `k256` point encoding, `generator()`, `blake2b256_hash`,
`ergo-chain-types/src/ec_point.rs:122-144`, `ergotree-interpreter/src/sigma_protocol/fiat_shamir.rs:66-71`. -/
structure Curve (G : Type) where
  codec : PointCodec G
  gen : G
  hash : HashFn

/-- `Challenge(FiatShamirHash)`, `challenge.rs:13`, `fiat_shamir.rs:38`: 24 bytes (`SOUNDNESS_BYTES`,
`sigma_protocol.rs:106`). -/
abbrev Challenge := { bs : Bytes // bs.length = 24 }

/-- `Challenge::xor`, `challenge.rs:26-36`. -/
def Challenge.xor (a b : Challenge) : Challenge :=
  ⟨List.zipWith (fun x y => x ^^^ y) a.1 b.1, by rw [List.length_zipWith, a.2, b.2]; rfl⟩

/-- `From<Challenge> for Gf2_192`, `gf2_192.rs:16-21`. -/
def Challenge.toGf (e : Challenge) : Gf.Gf := Gf.ofBytes24 e.1

theorem toBytes_len (a : Gf.Gf) : (Gf.toBytes a).length = 24 := by simp [Gf.toBytes, Gf.wordBytes]

/-- `From<Gf2_192> for Challenge`, `gf2_192.rs:9-14`. -/
def Challenge.ofGf (a : Gf.Gf) : Challenge := ⟨Gf.toBytes a, toBytes_len a⟩

/-- Big-endian bytes as a number (`U256` reading done by `reduce_bytes`), `ergotree-interpreter/src/sigma_protocol/wscalar.rs:43, 54`. -/
def beNat (bs : Bytes) : Nat := bs.foldl (fun a b => 256 * a + b.toNat) 0

/-- `n` big-endian bytes of a number, for `ergotree-interpreter/src/sigma_protocol/wscalar.rs:60`. -/
def natBe : Nat → Nat → Bytes
  | 0, _ => []
  | n + 1, v => natBe n (v / 256) ++ [BitVec.ofNat 8 v]

/-- `From<Challenge> for Scalar`, `wscalar.rs:48-56`: big-endian, reduced (the eight leading zero bytes do not change
the number). -/
def Challenge.toScalar {q : Nat} (e : Challenge) : ZMod q := (beNat e.1 : ZMod q)

/-- `Scalar::to_bytes`: 32 big-endian bytes of the representative below `q`, `ergotree-interpreter/src/sigma_protocol/wscalar.rs:60`. -/
def scalarBytes {q : Nat} (z : ZMod q) : Bytes := natBe 32 z.val

/-- `From<GroupSizedBytes> for Wscalar`, `wscalar.rs:40-46` (`reduce_bytes`). -/
def scalarOfBytes {q : Nat} (bs : Bytes) : ZMod q := (beNat bs : ZMod q)

/-! ## Leaves -/

/-- `SigmaProofOfKnowledgeTree`: `ProveDlog { h }` or `ProveDhTuple { g, h, u, v }`, `sigma_boolean.rs:62-83`. -/
inductive LeafProp (G : Type) where
  | dlog (h : G)
  | dht (g h u v : G)
  deriving DecidableEq

/-- The proposition of a leaf, `ProofTreeLeaf::proposition`, `unchecked_tree.rs:98-107`, `unproven_tree.rs:179-188`. -/
def LeafProp.toSB {G : Type} : LeafProp G → SigmaBoolean G
  | dlog h => .dlog h
  | dht g h u v => .dht g h u v

/-- `FirstProverMessage`: `FirstDlogProverMessage { a }` (`dlog_protocol.rs:12-15`) or `FirstDhTupleProverMessage { a, b }`
(`dht_protocol.rs:12-17`). -/
inductive Msg (G : Type) where
  | dlog (a : G)
  | dht (a b : G)
  deriving DecidableEq

section
variable {G : Type} [DecidableEq G] {q : Nat} [AddCommGroup G] [Module (ZMod q) G]

/-- `ec_point::exponentiate`, `ergo-chain-types/src/ec_point.rs:110-117`. -/
def expo (C : Curve G) (base : G) (s : ZMod q) : G := if base = C.codec.one then base else s • base

/-- `interactive_prover::compute_commitment`, `dlog_protocol.rs:110-121` and `dht_protocol.rs:124-149`. -/
def computeCommitment (C : Curve G) (p : LeafProp G) (e : Challenge) (z : ZMod q) : Msg G :=
  match p with
  | .dlog h => .dlog (expo C C.gen z + -expo C h (e.toScalar : ZMod q))
  | .dht g h u v =>
    .dht (expo C g z + -expo C u (e.toScalar : ZMod q)) (expo C h z + -expo C v (e.toScalar : ZMod q))

/-- `interactive_prover::first_message`, `dlog_protocol.rs:81-86` and `dht_protocol.rs:92-98`; `r` is the random
scalar. -/
def firstMessage (C : Curve G) (p : LeafProp G) (r : ZMod q) : Msg G :=
  match p with
  | .dlog _ => .dlog (expo C C.gen r)
  | .dht g h _ _ => .dht (expo C g r) (expo C h r)

/-- `interactive_prover::second_message`, `dlog_protocol.rs:92-103` and `dht_protocol.rs:104-115`. -/
def secondMessage (w rnd : ZMod q) (e : Challenge) : ZMod q := rnd + e.toScalar * w

/-- `interactive_prover::simulate`, `dlog_protocol.rs:59-76` and `dht_protocol.rs:64-85`; `z` is the random scalar, the
second component of the result. -/
def simulate (C : Curve G) (p : LeafProp G) (e : Challenge) (z : ZMod q) : Msg G :=
  match p with
  | .dlog h => .dlog (expo C C.gen z + expo C h (-(e.toScalar : ZMod q)))
  | .dht g h u v =>
    .dht (expo C g z + expo C u (-(e.toScalar : ZMod q))) (expo C h z + expo C v (-(e.toScalar : ZMod q)))

end

/-- `ProverMessage::bytes`, `dlog_protocol.rs:23-29`, `dht_protocol.rs:29-36`. -/
def Msg.bytes {G : Type} [DecidableEq G] (pc : PointCodec G) : Msg G → Bytes
  | dlog a => putPoint pc a
  | dht a b => putPoint pc a ++ putPoint pc b

/-! ## Unchecked trees -/

/-- `UncheckedConjecture::{CandUnchecked, CorUnchecked, CthresholdUnchecked}`, `unchecked_tree.rs:170-198`: the variant
and, for a threshold, `k` and the polynomial. -/
inductive UKind where
  | and
  | or
  | thr (k : Byte) (poly : Gf.Poly)
  deriving DecidableEq

/-- `UncheckedTree`, `unchecked_tree.rs:33-38, 72-78, 116-127, 149-160, 170-198`. -/
inductive Unchecked (G : Type) (q : Nat) where
  | leaf (prop : LeafProp G) (commitment : Option (Msg G)) (challenge : Challenge) (z : ZMod q)
  | conj (kind : UKind) (challenge : Challenge) (children : List (Unchecked G q))

/-- `UncheckedTree::challenge`, `unchecked_tree.rs:42-47, 82-87, 251-268`. -/
def Unchecked.challenge {G : Type} {q : Nat} : Unchecked G q → Challenge
  | leaf _ _ e _ => e
  | conj _ e _ => e

/-- The length test of `sig_write_bytes`, `sig_serializer.rs:94-98`: `assert_eq!` and the subtraction
`children.len() - k` (underflow panics). -/
def polyBytesChecked (n : Nat) (k : Byte) (poly : Gf.Poly) : Outcome Bytes := do
  let bs ← poly.toBytes
  if n < k.toNat then .panic
  else if bs.length = (n - k.toNat) * 24 then .ok bs else .panic

section
variable {G : Type} {q : Nat}

mutual
/-- `sig_write_bytes`, `sig_serializer.rs:45-108`. -/
def sigWrite : Unchecked G q → Bool → Outcome Bytes
  | .leaf _ _ e z, wr => .ok ((if wr then e.1 else []) ++ scalarBytes z)
  | .conj .and e cs, wr => do
    let bs ← sigWriteAll cs
    pure ((if wr then e.1 else []) ++ bs)
  | .conj .or e cs, wr => do
    let bs ← sigWriteOr cs
    pure ((if wr then e.1 else []) ++ bs)
  | .conj (.thr k poly) e cs, wr => do
    let pb ← polyBytesChecked cs.length k poly
    let bs ← sigWriteAll cs
    pure ((if wr then e.1 else []) ++ (pb ++ bs))
/-- The loop at lines 71-73 and 101-103: children without their challenges,
`ergotree-interpreter/src/sigma_protocol/sig_serializer.rs:71-73, 101-103`. -/
def sigWriteAll : List (Unchecked G q) → Outcome Bytes
  | [] => .ok []
  | c :: cs => do
    let b ← sigWrite c false
    let bs ← sigWriteAll cs
    pure (b ++ bs)
/-- Lines 81-85: all children but the last with their challenges, `ergotree-interpreter/src/sigma_protocol/sig_serializer.rs:81-85`. -/
def sigWriteOr : List (Unchecked G q) → Outcome Bytes
  | [] => .ok []
  | [c] => sigWrite c false
  | c :: cs => do
    let b ← sigWrite c true
    let bs ← sigWriteOr cs
    pure (b ++ bs)
end

/-- `serialize_sig`, `sig_serializer.rs:33-40`. -/
def serializeSig (t : Unchecked G q) : Outcome Bytes := sigWrite t true

/-! ## Parsing a proof -/

/-- `Challenge::sigma_parse`, `challenge.rs:43-47`. -/
def readChallenge (s : Bytes) : Outcome (Challenge × Bytes) :=
  if h : 24 ≤ s.length then .ok (⟨s.take 24, by simp; omega⟩, s.drop 24) else .err

/-- `Verifier Step 2`, `sig_serializer.rs:137-141`. -/
def theChallenge (ch : Option Challenge) (s : Bytes) : Outcome (Challenge × Bytes) :=
  match ch with
  | some c => .ok (c, s)
  | none => readChallenge s

/-- Lines 148-151 and 162-165: 32 bytes, reduced to a scalar, `ergotree-interpreter/src/sigma_protocol/sig_serializer.rs:148-151, 162-165`.
-/
def readScalar (s : Bytes) : Outcome (ZMod q × Bytes) :=
  if 32 ≤ s.length then .ok (scalarOfBytes (s.take 32), s.drop 32) else .err

/-- `gf2_192poly_from_byte_array`, `gf2_192.rs:29-40`. -/
def polyFromBytes (e : Challenge) (more : Bytes) : Outcome Gf.Poly :=
  match Gf.Poly.ofBytes (Gf.toBytes e.toGf) more with
  | some p => .ok p
  | none => .err

/-- Lines 220-226: the coefficients of the polynomial.  `n_children - k` on `usize` underflows when `k > n`: a panic in
debug builds; in release builds the wrapped size makes the allocation `vec![0u8; buf_size]` panic,
`ergotree-interpreter/src/sigma_protocol/sig_serializer.rs:220-226`. -/
def readPoly (e : Challenge) (n : Nat) (k : Byte) (s : Bytes) : Outcome (Gf.Poly × Bytes) :=
  if n < k.toNat then .panic
  else if (n - k.toNat) * 24 ≤ s.length then do
    let p ← polyFromBytes e (s.take ((n - k.toNat) * 24))
    pure (p, s.drop ((n - k.toNat) * 24))
  else .err

mutual
/-- `parse_sig_compute_challenges_reader`, `sig_serializer.rs:131-249`. -/
def parseSig : SigmaBoolean G → Option Challenge → Bytes → Outcome (Unchecked G q × Bytes)
  | .trivial _, ch, s => do
    let _ ← theChallenge ch s
    .err
  | .dlog h, ch, s => do
    let (e, s) ← theChallenge ch s
    let (z, s) ← readScalar s
    pure (.leaf (.dlog h) none e z, s)
  | .dht g h u v, ch, s => do
    let (e, s) ← theChallenge ch s
    let (z, s) ← readScalar s
    pure (.leaf (.dht g h u v) none e z, s)
  | .cand items, ch, s => do
    let (e, s) ← theChallenge ch s
    let (cs, s) ← parseAnd e items s
    pure (.conj .and e cs, s)
  | .cor items, ch, s => do
    let (e, s) ← theChallenge ch s
    let (cs, s) ← parseOr e items s
    pure (.conj .or e cs, s)
  | .cth k items, ch, s => do
    let (e, s) ← theChallenge ch s
    let (poly, s) ← readPoly e items.length k s
    let (cs, s) ← parseThr poly 0 items s
    pure (.conj (.thr k poly) e cs, s)
/-- Lines 179-181, `ergotree-interpreter/src/sigma_protocol/sig_serializer.rs:179-181`. -/
def parseAnd (e : Challenge) : List (SigmaBoolean G) → Bytes → Outcome (List (Unchecked G q) × Bytes)
  | [], s => .ok ([], s)
  | c :: cs, s => do
    let (t, s) ← parseSig c (some e) s
    let (ts, s) ← parseAnd e cs s
    pure (t :: ts, s)
/-- Lines 194-207; `acc` is the parent challenge XORed with the challenges of the children read so far (the fold at
lines 200-204 visits them in the same order), `ergotree-interpreter/src/sigma_protocol/sig_serializer.rs:194-207`. -/
def parseOr (acc : Challenge) : List (SigmaBoolean G) → Bytes → Outcome (List (Unchecked G q) × Bytes)
  | [], s => .ok ([], s)
  | [c], s => do
    let (t, s) ← parseSig c (some acc) s
    pure ([t], s)
  | c :: cs, s => do
    let (t, s) ← parseSig c none s
    let (ts, s) ← parseOr (acc.xor t.challenge) cs s
    pure (t :: ts, s)
/-- Lines 228-238; `idx` counts the children from 0, `ergotree-interpreter/src/sigma_protocol/sig_serializer.rs:228-238`. -/
def parseThr (poly : Gf.Poly) (idx : Nat) : List (SigmaBoolean G) → Bytes → Outcome (List (Unchecked G q) × Bytes)
  | [], s => .ok ([], s)
  | c :: cs, s => do
    let v ← poly.evaluate (BitVec.ofNat 8 (idx + 1))
    let (t, s) ← parseSig c (some (.ofGf v)) s
    let (ts, s) ← parseThr poly (idx + 1) cs s
    pure (t :: ts, s)
end

/-- `parse_sig_compute_challenges`, `sig_serializer.rs:115-125`; bytes after the proof are ignored. -/
def parseSigComputeChallenges (exp : SigmaBoolean G) (bs : Bytes) : Outcome (Unchecked G q) :=
  if bs = [] then .err
  else do
    let (t, _) ← parseSig exp none bs
    pure t

end

/-! ## Fiat-Shamir -/

/-- The ErgoTree built from a leaf proposition at `fiat_shamir.rs:140-147` and serialized: header `0x10` (version 0,
constants segregated), one constant of type `SSigmaProp` (8), root `ConstantPlaceholder(0)`.  Simplification: the
`ErgoTree::new` / `sigma_serialize_bytes` machinery (`ergo_tree.rs:176-201, 314-360`) is inlined for this tree. -/
def propBytes {G : Type} [DecidableEq G] (pc : PointCodec G) (p : LeafProp G) : Bytes :=
  [0x10#8, 0x01#8, 0x08#8] ++ SigmaBoolean.ser pc p.toSB ++ [0x73#8, 0x00#8]

/-- `put_i16_be_bytes(n as i16)`, `sigma-ser/src/vlq_encode.rs:122-124`. -/
def putI16Be (n : Nat) : Bytes := natBe 2 n

/-- The leaf part of `fiat_shamir_write_bytes`, `fiat_shamir.rs:137-159`. -/
def fsLeaf {G : Type} [DecidableEq G] (pc : PointCodec G) (p : LeafProp G) (m : Option (Msg G)) : Outcome Bytes :=
  match m with
  | none => .err
  | some m => .ok (1#8 :: (putI16Be (propBytes pc p).length ++ propBytes pc p ++ putI16Be (m.bytes pc).length ++ m.bytes pc))

/-- `conjecture_type() as u8` and, for a threshold, `k`: `fiat_shamir.rs:162-186`, `proof_tree.rs:131-135`. -/
def UKind.fsBytes : UKind → Bytes
  | and => [0#8]
  | or => [1#8]
  | thr k _ => [2#8, k]

section
variable {G : Type} [DecidableEq G] {q : Nat}

mutual
/-- `fiat_shamir_write_bytes` on an unchecked tree, `fiat_shamir.rs:129-193`. -/
def fsUnchecked (pc : PointCodec G) : Unchecked G q → Outcome Bytes
  | .leaf p m _ _ => fsLeaf pc p m
  | .conj kind _ cs => do
    let bs ← fsUncheckedList pc cs
    pure (0#8 :: (kind.fsBytes ++ putI16Be cs.length ++ bs))
/-- The loop at lines 188-190, `ergotree-interpreter/src/sigma_protocol/fiat_shamir.rs:188-190`. -/
def fsUncheckedList (pc : PointCodec G) : List (Unchecked G q) → Outcome Bytes
  | [] => .ok []
  | c :: cs => do
    let b ← fsUnchecked pc c
    let bs ← fsUncheckedList pc cs
    pure (b ++ bs)
end

/-- `fiat_shamir_hash_fn`, `fiat_shamir.rs:66-72`: the first 24 bytes of blake2b256. -/
def fsHash (H : HashFn) (input : Bytes) : Challenge := ⟨(H input).take 24, by simp [H.len]⟩

/-! ## Verifier -/

mutual
/-- `compute_commitments`, `verifier.rs:134-167`. -/
def computeCommitments [AddCommGroup G] [Module (ZMod q) G] (C : Curve G) : Unchecked G q → Unchecked G q
  | .leaf p _ e z => .leaf p (some (computeCommitment C p e z)) e z
  | .conj kind e cs => .conj kind e (computeCommitmentsList C cs)
/-- `children_ust().mapped(compute_commitments)`, `verifier.rs:164`. -/
def computeCommitmentsList [AddCommGroup G] [Module (ZMod q) G] (C : Curve G) : List (Unchecked G q) → List (Unchecked G q)
  | [] => []
  | c :: cs => computeCommitments C c :: computeCommitmentsList C cs
end

/-- `check_commitments`, `verifier.rs:118-129`. -/
def checkCommitments [AddCommGroup G] [Module (ZMod q) G] (C : Curve G) (sp : Unchecked G q) (message : Bytes) :
    Outcome Bool := do
  let newRoot := computeCommitments C sp
  let s ← fsUnchecked C.codec newRoot
  pure (decide (newRoot.challenge = fsHash C.hash (s ++ message)))

/-- `verify_signature`, `verifier.rs:95-115`; `Verifier::verify`, lines 72-85, is the same after reducing the script. -/
def verifySignature [AddCommGroup G] (q : Nat) [Module (ZMod q) G] (C : Curve G) (sb : SigmaBoolean G)
    (message signature : Bytes) : Outcome Bool :=
  match sb with
  | .trivial b => .ok b
  | sb =>
    if signature = [] then .ok false
    else do
      let t ← parseSigComputeChallenges (q := q) sb signature
      checkCommitments C t message

end

end Verif.Sigma
