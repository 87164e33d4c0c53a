import Verif.Model.Autolykos
import Verif.Model.Merkle

/-!
# Non-interactive proofs of proof-of-work

Source: `ergo-nipopow/src/nipopow_algos.rs`, `nipopow_proof.rs`, `nipopow_verifier.rs`,
`ergo-chain-types/src/extensioncandidate.rs`.
-/

namespace Verif
open Merkle
variable {G : Type}

/-- Unchecked `u8` addition of 1, `ergo-nipopow/src/nipopow_algos.rs:207, 219`. -/
def incU8 (m : Mode) (n : Nat) : Outcome Nat :=
  if n + 1 < 256 then .ok (n + 1)
  else match m with
    | .debug => .panic
    | .release => .ok 0

/-- A field of the extension: `([u8; 2], Vec<u8>)`, `extensioncandidate.rs:3-6`. -/
structure ExtField where
  k0 : Byte
  k1 : Byte
  value : Bytes
  deriving DecidableEq

/-- `INTERLINK_VECTOR_PREFIX`, `nipopow_algos.rs:15`. -/
def interlinkPrefix : Byte := 1

/-- The packed value and key of one run of equal ids, `nipopow_algos.rs:209-216, 222-229`. -/
def packRun (ix count : Nat) (id : Bytes) : ExtField :=
  { k0 := interlinkPrefix, k1 := BitVec.ofNat 8 ix, value := BitVec.ofNat 8 count :: id }

/-- The loop of `pack_interlinks`, `nipopow_algos.rs:205-229`. -/
def packLoop (m : Mode) : List Bytes → Nat → Nat → Bytes → Outcome (List ExtField)
  | [], ix, count, cur => .ok [packRun ix count cur]
  | id :: l, ix, count, cur =>
    if id = cur then do
      let c ← incU8 m count
      packLoop m l ix c cur
    else do
      let i ← incU8 m ix
      let r ← packLoop m l i 1 id
      pure (packRun ix count cur :: r)

/-- `pack_interlinks`, `nipopow_algos.rs:200-231`; `interlinks[0]` panics on an empty vector.  The counters are `u8` (they are put
into byte arrays). -/
def packInterlinks (m : Mode) : List Bytes → Outcome (List ExtField)
  | [] => .panic
  | id :: l => packLoop m l 0 1 id

/-- `unpack_interlinks`, `nipopow_algos.rs:233-254`. -/
def unpackInterlinks : List ExtField → Outcome (List Bytes)
  | [] => .ok []
  | f :: l =>
    if f.k0 = interlinkPrefix then
      match f.value with
      | [] => .err
      | q :: id =>
        if id.length = 32 then do
          let r ← unpackInterlinks l
          pure (List.replicate q.toNat id ++ r)
        else .err
    else unpackInterlinks l

/-- `ExtensionCandidate::new`, `extensioncandidate.rs:10-15`. -/
def extensionNew (fields : List ExtField) : Outcome (List ExtField) :=
  if fields.all fun f => decide (f.value.length ≤ 64) then .ok fields else .err

/-- `update_interlinks`, `nipopow_algos.rs:257-292`.  A negative level is a huge `usize`; collecting that many ids panics
(capacity overflow). -/
def updateInterlinks (W : Pow) (h : Header G) (links : List Bytes) : Outcome (List Bytes) :=
  if h.height = 1 then .ok [h.id]
  else match links with
    | [] => .panic
    | genesis :: _ => do
      let lv ← W.maxLevel h
      if lv.toInt < 0 then .panic
      else if 0 < lv.toInt then
        (if lv.toNat < links.length then
          .ok (genesis :: ((links.take (links.length - lv.toNat)).drop 1 ++ List.replicate lv.toNat h.id))
        else .ok (genesis :: List.replicate lv.toNat h.id))
      else .ok links

/-- The number of headers at or above a level, `nipopow_algos.rs:64-69`: levels are compared as `u32`. -/
def countAt (lv : List (BitVec 32)) (level : Nat) : Nat := (lv.filter fun l => decide (level ≤ l.toNat)).length

/-- The loop of `best_arg`, `nipopow_algos.rs:63-79`: the pairs of level and size found, lowest level first (the code inserts at
the front; only their maximum is used).  Counting past the highest `u32` level panics; in a release build the level wraps and
the loop goes on for ever, which is not distinguished from a panic. -/
def bestArgLoop (lv : List (BitVec 32)) (m : Nat) (level : Nat) : Outcome (List (Nat × Nat)) :=
  if m ≤ countAt lv level then
    if h : level + 1 < 2 ^ 32 then do
      let r ← bestArgLoop lv m (level + 1)
      pure ((level, countAt lv level) :: r)
    else .panic
  else .ok []
  termination_by 2 ^ 32 - level

/-- `2usize.pow(level) * size`, `nipopow_algos.rs:85`. -/
def score (mode : Mode) (level size : Nat) : Outcome Nat :=
  if 2 ^ level < 2 ^ 64 ∧ 2 ^ level * size < 2 ^ 64 then .ok (2 ^ level * size)
  else match mode with
    | .debug => .panic
    | .release => .ok (2 ^ level * size % 2 ^ 64)

/-- The scores of all pairs, `ergo-nipopow/src/nipopow_algos.rs:53-90`. -/
def scores (mode : Mode) : List (Nat × Nat) → Outcome (List Nat)
  | [] => .ok []
  | p :: l => do
    let x ← score mode p.1 p.2
    let r ← scores mode l
    pure (x :: r)

/-- `max_level_of` of all headers, the inner loop of `best_arg`, `nipopow_algos.rs:65-69`. -/
def levelsOf (W : Pow) : List (Header G) → Outcome (List (BitVec 32))
  | [] => .ok []
  | h :: l => do
    let x ← W.maxLevel h
    let r ← levelsOf W l
    pure (x :: r)

/-- `best_arg`, `nipopow_algos.rs:53-89`.  Simplification: the levels are computed once, not once for each round. -/
def bestArg (mode : Mode) (W : Pow) (chain : List (Header G)) (m : Nat) : Outcome Nat := do
  let lv ← levelsOf W chain
  let acc ← bestArgLoop lv m 1
  let s ← scores mode ((0, chain.length) :: acc)
  pure (s.foldl max 0)

/-- The inner loop of `lowest_common_ancestor`, `nipopow_algos.rs:127-132`: `(right_ix_start, common)`. -/
def lcaInner [DecidableEq G] (left : Header G) : List (Header G × Nat) → Nat × List (Header G) → Nat × List (Header G)
  | [], st => st
  | (r, i) :: l, st => lcaInner left l (if left = r then (i + 1, st.2 ++ [left]) else st)

/-- The outer loop of `lowest_common_ancestor`, `nipopow_algos.rs:125-133`. -/
def lcaOuter [DecidableEq G] (right : List (Header G)) : List (Header G) → Nat × List (Header G) → Nat × List (Header G)
  | [], st => st
  | h :: l, st => lcaOuter right l (lcaInner h (right.zipIdx.drop st.1) st)

/-- `lowest_common_ancestor`, `nipopow_algos.rs:111-135`. -/
def lca [DecidableEq G] (left right : List (Header G)) : Option (Header G) :=
  match left, right with
  | a :: _, b :: _ => if a ≠ b then none else (lcaOuter right left (0, [])).2.getLast?
  | _, _ => (lcaOuter right left (0, [])).2.getLast?

/-- `PoPowHeader`, `nipopow_proof.rs:202-211`. -/
structure PoPowHeader (G : Type) where
  header : Header G
  interlinks : List Bytes
  proof : Batch
  deriving DecidableEq

/-- `NipopowProof`, `nipopow_proof.rs:14-33`. -/
structure NipopowProof (G : Type) where
  m : BitVec 32
  k : BitVec 32
  pre : List (PoPowHeader G)
  suffixHead : PoPowHeader G
  suffixTail : List (Header G)
  deriving DecidableEq

/-- `kv_to_leaf`, `nipopow_algos.rs:337-342`, and the same in `nipopow_proof.rs:225-230`. -/
def kvToLeaf (f : ExtField) : Bytes := 2 :: f.k0 :: f.k1 :: f.value

/-- `extension_merkletree`, `nipopow_algos.rs:344-351`. -/
def extensionTree (H : HashFn) (fields : List ExtField) : Outcome Tree :=
  Tree.new H (fields.map fun f => Node.fromBytes H (kvToLeaf f))

/-- `check_interlinks_proof`, `nipopow_proof.rs:215-236`. -/
def PoPowHeader.checkInterlinks (mode : Mode) (H : HashFn) (p : PoPowHeader G) : Outcome Bool :=
  if p.interlinks = [] ∧ p.proof.indices = [] ∧ p.proof.proofs = [] then .ok true
  else do
    let fields ← packInterlinks mode p.interlinks
    let t ← extensionTree H fields
    pure (p.proof.valid H t.rootHash)

/-- The indices of `extension_batch_proof_for`, `nipopow_algos.rs:324-331`. -/
def batchIndices (H : HashFn) (t : Tree) (fields : List ExtField) (keys : List (Byte × Byte)) : List Nat :=
  keys.filterMap fun k =>
    (fields.find? fun f => decide ((f.k0, f.k1) = k)).bind fun f => t.elementsHashIndex.get (H (leafPre (kvToLeaf f)))

/-- `extension_batch_proof_for`, `nipopow_algos.rs:319-333`. -/
def extensionBatchProof (H : HashFn) (fields : List ExtField) (keys : List (Byte × Byte)) : Outcome Batch := do
  let t ← extensionTree H fields
  t.proofByIndices (batchIndices H t fields keys)

/-- `proof_for_interlink_vector`, `nipopow_algos.rs:294-308`. -/
def interlinkProof (H : HashFn) (fields : List ExtField) : Outcome Batch :=
  let keys := (fields.map fun f => (f.k0, f.k1)).filter fun k => decide (k.1 = interlinkPrefix)
  if keys = [] then .ok { indices := [], proofs := [] } else extensionBatchProof H fields keys

/-- `extension_proof_for`, `nipopow_algos.rs:310-317`. -/
def extensionProof (H : HashFn) (fields : List ExtField) (key : Byte × Byte) : Outcome Proof := do
  let t ← extensionTree H fields
  match fields.find? fun f => decide ((f.k0, f.k1) = key) with
  | some f => t.proofByElement H (kvToLeaf f)
  | none => .err

namespace NipopowProof

/-- `NipopowProof::new`, `nipopow_proof.rs:37-56`. -/
def new (m k : BitVec 32) (pre : List (PoPowHeader G)) (sh : PoPowHeader G) (st : List (Header G)) : Outcome (NipopowProof G) :=
  if 1 ≤ k.toNat then .ok { m := m, k := k, pre := pre, suffixHead := sh, suffixTail := st } else .err

/-- `headers_chain`, `nipopow_proof.rs:129-134`. -/
def chain (p : NipopowProof G) : List (Header G) := p.pre.map PoPowHeader.header ++ p.suffixHead.header :: p.suffixTail

/-- `has_valid_connections`, `nipopow_proof.rs:92-110`. -/
def connections (p : NipopowProof G) : Bool :=
  ((p.pre.zip (p.pre.drop 1 ++ [p.suffixHead])).all fun x =>
    x.2.interlinks.contains x.1.header.id || decide (x.2.header.parentId = x.1.header.id)) &&
  (((p.suffixHead.header :: p.suffixTail).zip p.suffixTail).all fun x => decide (x.2.parentId = x.1.id))

/-- `has_valid_heights`, `nipopow_proof.rs:115-119`. -/
def heights (p : NipopowProof G) : Bool :=
  (p.chain.zip (p.chain.drop 1)).all fun x => decide (x.1.height.toNat < x.2.height.toNat)

/-- `Iterator::all` with a check that can panic, `ergo-nipopow/src/nipopow_proof.rs:101-124`. -/
def allOk (mode : Mode) (H : HashFn) : List (PoPowHeader G) → Outcome Bool
  | [] => .ok true
  | p :: l => do
    let b ← p.checkInterlinks mode H
    if b then allOk mode H l else pure false

/-- `has_valid_proofs`, `nipopow_proof.rs:121-125`. -/
def proofs (mode : Mode) (H : HashFn) (p : NipopowProof G) : Outcome Bool := allOk mode H (p.suffixHead :: p.pre)

/-- `is_valid`, `nipopow_proof.rs:85-87`. -/
def isValid (mode : Mode) (H : HashFn) (p : NipopowProof G) : Outcome Bool :=
  if p.connections && p.heights then p.proofs mode H else .ok false

/-- The headers above a height, `nipopow_proof.rs:67-74`. -/
def above (p : NipopowProof G) (height : BitVec 32) : List (Header G) :=
  p.chain.filter fun h => decide (height.toNat < h.height.toNat)

/-- `is_better_than`, `nipopow_proof.rs:61-83`. -/
def isBetter [DecidableEq G] (mode : Mode) (W : Pow) (p q : NipopowProof G) : Outcome Bool := do
  let a ← p.isValid mode W.H
  if a then do
    let b ← q.isValid mode W.H
    if b then
      match lca p.chain q.chain with
      | some l => do
        let x ← bestArg mode W (p.above l.height) p.m.toNat
        let y ← bestArg mode W (q.above l.height) p.m.toNat
        pure (decide (y < x))
      | none => pure false
    else p.isValid mode W.H
  else pure a

end NipopowProof

/-- `NipopowVerifier`, `nipopow_verifier.rs:9-13`. -/
structure NipopowVerifier (G : Type) where
  best : Option (NipopowProof G)
  genesis : Bytes

namespace NipopowVerifier

/-- `NipopowVerifier::new`, `nipopow_verifier.rs:17-22`. -/
def new (genesis : Bytes) : NipopowVerifier G := { best := none, genesis := genesis }

/-- `best_chain`, `nipopow_verifier.rs:30-34`. -/
def bestChain (v : NipopowVerifier G) : List (Header G) :=
  match v.best with
  | some p => p.chain
  | none => []

/-- `process`, `nipopow_verifier.rs:37-51`.  After an error the verifier is as before; an error is given as `.err`. -/
def process [DecidableEq G] (mode : Mode) (W : Pow) (v : NipopowVerifier G) (p : NipopowProof G) : Outcome (NipopowVerifier G) :=
  match p.chain with
  | [] => .ok v
  | h :: _ =>
    if h.id = v.genesis then
      match v.best with
      | some q => do
        let b ← p.isBetter mode W q
        pure (if b then { v with best := some p } else v)
      | none => .ok { v with best := some p }
    else .ok v

end NipopowVerifier

/-- The sub-chain of one round of `prove`, `nipopow_algos.rs:175-182`; levels are compared as `i32`. -/
def subChain (W : Pow) (level : Nat) (height : BitVec 32) : List (PoPowHeader G) → Outcome (List (PoPowHeader G))
  | [] => .ok []
  | p :: l => do
    let lv ← W.maxLevel p.header
    let r ← subChain W level height l
    pure (if (level : Int) ≤ lv.toInt ∧ height.toNat ≤ p.header.height.toNat then p :: r else r)

/-- `for pph in sub_chain { if !prefix.contains(&pph) { prefix.push(pph) } }`, `nipopow_algos.rs:189-193`. -/
def addMissing [DecidableEq G] (pre : List (PoPowHeader G)) : List (PoPowHeader G) → List (PoPowHeader G)
  | [] => pre
  | p :: l => if p ∈ pre then addMissing pre l else addMissing (pre ++ [p]) l

/-- The loop of `prove`, `nipopow_algos.rs:172-195`, for the levels below `n`: the stack always has one entry, `(anchor, n - 1)`.
`sub_chain[sub_chain.len() - m]` panics for `m = 0`. -/
def proveLoop [DecidableEq G] (W : Pow) (m : Nat) (chain : List (PoPowHeader G)) :
    Nat → PoPowHeader G → List (PoPowHeader G) → Outcome (List (PoPowHeader G))
  | 0, _, pre => .ok pre
  | level + 1, anchor, pre => do
    let sub ← subChain W level anchor.header.height chain
    let next ← (if m < sub.length then
        (match sub[sub.length - m]? with
          | some a => Outcome.ok a
          | none => Outcome.panic)
      else Outcome.ok anchor)
    proveLoop W m chain level next (addMissing pre sub)

/-- `a.header.height.cmp(&b.header.height)`, `nipopow_algos.rs:196`. -/
def heightLe (a b : PoPowHeader G) : Bool := decide (a.header.height.toNat ≤ b.header.height.toNat)

/-- `(interlinks.len() - 1) as i32` in `prove`, `nipopow_algos.rs:158-165`, plus one: the number of rounds. -/
def rounds (mode : Mode) (links : List Bytes) : Outcome Nat :=
  match links, mode with
  | [], .debug => .panic
  | [], .release => .ok 0
  | l, _ => .ok l.length

/-- `prove`, `nipopow_algos.rs:138-198`.  `sort_by` is a stable sort, as is `List.mergeSort`.  `k + m` is an unchecked `u32`
addition. -/
def prove [DecidableEq G] (mode : Mode) (W : Pow) (chain : List (PoPowHeader G)) (k m : BitVec 32) : Outcome (NipopowProof G) :=
  if k.toNat = 0 then .err
  else if 2 ^ 32 ≤ k.toNat + m.toNat ∧ mode = .debug then .panic
  else if chain.length < (k + m).toNat then .err
  else match chain with
    | [] => .panic
    | first :: _ =>
      if first.header.height ≠ 1 then .err
      else if chain.length < k.toNat then .panic
      else
        let front := chain.take (chain.length - k.toNat)
        match chain.drop (chain.length - k.toNat), front.getLast? with
        | sh :: st, some last => do
          let n ← rounds mode last.interlinks
          let pre ← proveLoop W m.toNat front n first []
          NipopowProof.new m k (pre.mergeSort heightLe) sh (st.map PoPowHeader.header)
        | _, _ => .err

end Verif
