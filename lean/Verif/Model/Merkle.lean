import Verif.Model.Vlq
import Verif.Model.Hash
import Verif.Model.FMap

/-!
# Merkle trees, single and batch proofs

Source: `ergo-merkle-tree/src/{lib,merkletree,merkleproof,batchmerkleproof}.rs`.
`usize` indices are natural numbers; a vector index out of bounds is the outcome `panic`.
-/

namespace Verif.Merkle

/-- `prefixed_hash(LEAF_PREFIX, data)`, `lib.rs:27,35-40`. -/
def leafPre (data : Bytes) : Bytes := 0#8 :: data

/-- Input hashed by `prefixed_hash2(INTERNAL_PREFIX, a, b)`, `lib.rs:26,44-58`. -/
def nodePre (a b : Option Bytes) : Bytes := 1#8 :: (a.getD [] ++ b.getD [])

/-- `MerkleNode`, `merkletree.rs:10-22`. -/
inductive Node where
  | node (hash : Bytes)
  | leaf (hash : Bytes) (data : Bytes)
  | empty
  deriving DecidableEq, Repr

/-- `MerkleNode::from_bytes`, `merkletree.rs:26-30`. -/
def Node.fromBytes (H : HashFn) (data : Bytes) : Node := .leaf (H (leafPre data)) data

/-- `MerkleNode::get_hash`, `merkletree.rs:32-38`. -/
def Node.hash? : Node → Option Bytes
  | .node h => some h
  | .leaf h _ => some h
  | .empty => none

/-- `MerkleNode::get_leaf_data`, `merkletree.rs:40-45`. -/
def Node.leafData? : Node → Option Bytes
  | .leaf _ d => some d
  | _ => none

/-- `get_left`, `merkletree.rs:52-54`. -/
def getLeft (i : Nat) : Nat := 2 * i + 1
/-- `get_right`, `merkletree.rs:55-57`. -/
def getRight (i : Nat) : Nat := 2 * i + 2

/-- `get_parent`, `merkletree.rs:59-61`. -/
def getParent : Nat → Option Nat
  | 0 => none
  | i + 1 => some (i / 2)

/-- `get_sibling`, `merkletree.rs:63-70`. -/
def getSibling (i : Nat) : Option Nat :=
  match getParent i with
  | none => none
  | some p => if getLeft p ≠ i then some (getLeft p) else some (getRight p)

/-- `NodeSide`, `merkleproof.rs:13-18`. -/
inductive Side where
  | left
  | right
  deriving DecidableEq, Repr

/-- `LevelNode`, `merkleproof.rs:41-46`. -/
structure LevelNode where
  hash : Option Bytes
  side : Side
  deriving DecidableEq, Repr

/-- `MerkleProof`, `merkleproof.rs:70-73`. -/
structure Proof where
  leafData : Bytes
  levels : List LevelNode
  deriving DecidableEq, Repr

/-- One step of the fold in `MerkleProof::valid`: the input hashed at a level, `merkleproof.rs:91-101`. -/
def levelPre (prev : Bytes) (l : LevelNode) : Bytes :=
  match l.hash, l.side with
  | some h, .left => nodePre (some prev) (some h)
  | some h, .right => nodePre (some h) (some prev)
  | none, _ => nodePre (some prev) none

/-- The hash computed by `MerkleProof::valid`, `merkleproof.rs:87-101`. -/
def proofRoot (H : HashFn) (p : Proof) : Bytes :=
  p.levels.foldl (fun prev l => H (levelPre prev l)) (H (leafPre p.leafData))

/-- `MerkleProof::valid`, `merkleproof.rs:86-104`. -/
def Proof.valid (H : HashFn) (p : Proof) (expectedRoot : Bytes) : Bool := decide (proofRoot H p = expectedRoot)

/-- The `match` in `build_nodes`, `merkletree.rs:165-181` (`unreachable!()` is a panic). -/
def combine (H : HashFn) (l r : Node) : Outcome Node :=
  match l.hash?, r.hash? with
  | some a, some b => .ok (.node (H (nodePre (some a) (some b))))
  | some a, none => .ok (.node (H (nodePre (some a) none)))
  | none, none => .ok .empty
  | none, some _ => .panic

/-- Indexing `nodes[i]`, `ergo-merkle-tree/src/merkletree.rs:90, 127, 142, 166-167`. -/
def at? (nodes : List Node) (i : Nat) : Outcome Node :=
  match nodes[i]? with
  | some n => .ok n
  | none => .panic

/-- The loop of `build_nodes`, `merkletree.rs:163-184`: `pair` runs over the odd numbers below `nodes.len()` downwards;
step `j` has `pair = 2 j + 1`, sibling `2 j + 2` and parent `j`. -/
def buildNodes (H : HashFn) : Nat → List Node → Outcome (List Node)
  | 0, nodes => .ok nodes
  | j + 1, nodes => do
    let l ← at? nodes (getLeft j)
    let r ← at? nodes (getRight j)
    let n ← combine H l r
    buildNodes H j (nodes.set j n)

/-- `usize::next_power_of_two` by doubling from `p`; `fuel` bounds the doublings, for `ergo-merkle-tree/src/merkletree.rs:199`. -/
def npow2Loop (n : Nat) : Nat → Nat → Nat
  | 0, p => p
  | fuel + 1, p => if n ≤ p then p else npow2Loop n fuel (2 * p)

/-- `usize::next_power_of_two` (1 for 0), used at `ergo-merkle-tree/src/merkletree.rs:199`. -/
def nextPow2 (n : Nat) : Nat := npow2Loop n n 1

/-- `MerkleTree`, `merkletree.rs:153-157`. -/
structure Tree where
  nodes : List Node
  elementsHashIndex : FMap Bytes Nat
  internalNodes : Nat

/-- `if tree_nodes.len() % 2 == 1 { push(EmptyNode) }`, `merkletree.rs:186-188`. -/
def padEven (nodes : List Node) : List Node :=
  if nodes.length % 2 = 1 then nodes ++ [.empty] else nodes

/-- `.iter().flat_map(get_hash).enumerate().map(|(i, node)| (*node, i)).collect()`, `merkletree.rs:189-194`. -/
def hashIndex (nodes : List Node) : FMap Bytes Nat :=
  (nodes.filterMap Node.hash?).zipIdx.foldl (fun m p => FMap.insert m p.1 p.2) []

/-- `MerkleTree::new`, `merkletree.rs:161-208`. -/
def Tree.new (H : HashFn) (nodes : List Node) : Outcome Tree := do
  let leaves := padEven nodes
  let arr := List.replicate (nextPow2 leaves.length - 1) Node.empty ++ leaves
  let built ← buildNodes H (arr.length / 2) arr
  pure { nodes := built, elementsHashIndex := hashIndex leaves, internalNodes := built.length - leaves.length }

/-- `MerkleTree::root_hash`, `merkletree.rs:211-217`. -/
def Tree.rootHash (t : Tree) : Bytes :=
  ((t.nodes[0]?).bind Node.hash?).getD (List.replicate 32 0#8)

/-- `MerkleTree::root_hash_special`, `merkletree.rs:220-229`. -/
def Tree.rootHashSpecial (H : HashFn) (t : Tree) : Bytes :=
  ((t.nodes[0]?).bind Node.hash?).getD (H [])

/-- The `while` loop of `build_proof`, `merkletree.rs:84-95`. -/
def proofLoop (nodes : List Node) (i : Nat) : Outcome (List LevelNode) :=
  match getSibling i with
  | none => .ok []
  | some sib => do
    let side := if sib = i + 1 then Side.left else Side.right
    let n ← at? nodes sib
    match h : getParent i with
    | none => .err
    | some par => do
      let rest ← proofLoop nodes par
      pure ({ hash := n.hash?, side := side } :: rest)
termination_by i
decreasing_by
  cases i with
  | zero => simp [getParent] at h
  | succ i => simp only [getParent, Option.some.injEq] at h; omega

/-- `build_proof`, `merkletree.rs:73-98`; `err` is `None`. -/
def buildProof (nodes : List Node) (leafIndex internalNodes : Nat) : Outcome Proof :=
  match nodes[leafIndex + internalNodes]? with
  | some (.leaf _ data) => do
    let levels ← proofLoop nodes (leafIndex + internalNodes)
    pure { leafData := data, levels := levels }
  | _ => .err

/-- `MerkleTree::proof_by_index`, `merkletree.rs:237-239`. -/
def Tree.proofByIndex (t : Tree) (leafIndex : Nat) : Outcome Proof := buildProof t.nodes leafIndex t.internalNodes

/-- `MerkleTree::proof_by_element_hash`, `merkletree.rs:241-244`. -/
def Tree.proofByElementHash (t : Tree) (hash : Bytes) : Outcome Proof :=
  match t.elementsHashIndex.get hash with
  | some i => t.proofByIndex i
  | none => .err

/-- `MerkleTree::proof_by_element`, `merkletree.rs:246-249`. -/
def Tree.proofByElement (H : HashFn) (t : Tree) (data : Bytes) : Outcome Proof :=
  t.proofByElementHash (H (leafPre data))

/-! ## Batch proofs -/

/-- `BTreeSet::insert`: a set is its strictly increasing list of elements, `ergo-merkle-tree/src/merkletree.rs:107, 113`. -/
def setInsert (x : Nat) : List Nat → List Nat
  | [] => [x]
  | y :: ys => if x < y then x :: y :: ys else if x = y then y :: ys else y :: setInsert x ys

/-- `collect::<BTreeSet<_>>()`, `ergo-merkle-tree/src/merkletree.rs:107`. -/
def toSet (l : List Nat) : List Nat := l.foldl (fun s x => setInsert x s) []

/-- `BatchMerkleProofIndex`, `batchmerkleproof.rs:8-11`. -/
structure Indexed where
  index : Nat
  hash : Bytes
  deriving DecidableEq, Repr

/-- `BatchMerkleProof`, `batchmerkleproof.rs:22-25`. -/
structure Batch where
  indices : List Indexed
  proofs : List LevelNode
  deriving DecidableEq, Repr

/-- The set with all siblings added, `merkletree.rs:113-118` (`get_sibling(*node)?` returns `None` for the root). -/
def pruned : List Nat → List Nat → Outcome (List Nat)
  | [], s => .ok s
  | n :: rest, s =>
    match getSibling n with
    | none => .err
    | some sib => pruned rest (setInsert sib (setInsert n s))

/-- The body of `for node in diff`, `merkletree.rs:121-132`. -/
def diffNodes (nodes : List Node) : List Nat → Outcome (List LevelNode)
  | [] => .ok []
  | n :: rest =>
    match getSibling n with
    | none => .panic
    | some s => do
      let side := if s + 1 = n then Side.right else Side.left
      let nd ← at? nodes n
      let tl ← diffNodes nodes rest
      pure ({ hash := nd.hash?, side := side } :: tl)

/-- The `while !a.contains(&0)` loop of `build_multiproof`, `merkletree.rs:112-134`.  `fuel` is the number of levels that
may still be climbed (the loop ends when the root is reached, at most once per level; `C28_complete` shows that the
fuel given by `buildMultiproof` suffices). -/
def multiLoop (nodes : List Node) : Nat → List Nat → Outcome (List LevelNode)
  | 0, a => if a.contains 0 then .ok [] else .panic
  | fuel + 1, a =>
    if a.contains 0 then .ok []
    else do
      let b ← pruned a []
      let here ← diffNodes nodes (b.filter (fun x => !a.contains x))
      let rest ← multiLoop nodes fuel (toSet (b.filterMap getParent))
      pure (here ++ rest)

/-- The index list of the result, `merkletree.rs:137-145` (entries without a hash are dropped by `flat_map`). -/
def indexedOf (nodes : List Node) (internalNodes : Nat) : List Nat → Outcome (List Indexed)
  | [] => .ok []
  | i :: rest => do
    let nd ← at? nodes (i + internalNodes)
    let tl ← indexedOf nodes internalNodes rest
    match nd.hash? with
    | some h => pure ({ index := i, hash := h } :: tl)
    | none => pure tl

/-- `build_multiproof`, `merkletree.rs:100-148`. -/
def buildMultiproof (nodes : List Node) (leafIndices : List Nat) (internalNodes : Nat) : Outcome Batch := do
  let proofs ← multiLoop nodes nodes.length (toSet (leafIndices.map (· + internalNodes)))
  let idx ← indexedOf nodes internalNodes leafIndices
  pure { indices := idx, proofs := proofs }

/-- `MerkleTree::proof_by_indices`, `merkletree.rs:252-272`; `sort_unstable` followed by `dedup` is `toSet`. -/
def Tree.proofByIndices (t : Tree) (leafIndices : List Nat) : Outcome Batch :=
  let li := toSet leafIndices
  if li = [] ∨ li.any (fun i => ((t.nodes[t.internalNodes + i]?).bind Node.leafData?).isNone) then .err
  else buildMultiproof t.nodes li t.internalNodes

/-- The pair of an index and its neighbour, `batchmerkleproof.rs:41-44`. -/
def pairOf (i : Nat) : Nat × Nat := if i % 2 = 0 then (i, i + 1) else (i - 1, i)

/-- Input hashed for a node whose neighbour comes from the proof, `batchmerkleproof.rs:71-83`. -/
def headPre (e : Bytes) (head : LevelNode) : Bytes :=
  match head.side with
  | .left => nodePre head.hash (some e)
  | .right => nodePre (some e) head.hash

/-- The `while i < b.len()` loop of `validate`, `batchmerkleproof.rs:54-86`, on the list of pairs `b[i..]` with the hashes
`e[i..]`; returns `e_new` and what is left of `m`. -/
def validateLevel (H : HashFn) : List ((Nat × Nat) × Bytes) → List LevelNode → Option (List Bytes × List LevelNode)
  | [], m => some ([], m)
  | [(_, e)], m =>
    match m with
    | [] => none
    | head :: m => some ([H (headPre e head)], m)
  | (b1, e1) :: (b2, e2) :: rest, m =>
    if b1 = b2 then do
      let (es, m') ← validateLevel H rest m
      pure (H (nodePre (some e1) (some e2)) :: es, m')
    else
      match m with
      | [] => none
      | head :: m => do
        let (es, m') ← validateLevel H ((b2, e2) :: rest) m
        pure (H (headPre e1 head) :: es, m')
termination_by l => l.length

theorem validateLevel_measure (H : HashFn) : ∀ (l : List ((Nat × Nat) × Bytes)) (m : List LevelNode) (es : List Bytes)
    (m' : List LevelNode), validateLevel H l m = some (es, m') →
      es.length + m'.length ≤ l.length + m.length ∧ (l ≠ [] → es.length + m'.length < l.length + m.length) := by
  intro l m
  fun_induction validateLevel H l m with
  | case1 m => intro es m' e; simp at e; obtain ⟨rfl, rfl⟩ := e; simp
  | case2 => intro es m' e; simp at e
  | case3 => intro es m' e; simp at e; obtain ⟨rfl, rfl⟩ := e; simp
  | case4 m e1 b e2 rest ih =>
    intro es m' e
    simp only [Option.bind_eq_bind, Option.bind_eq_some_iff] at e
    obtain ⟨⟨es', m''⟩, h1, h2⟩ := e
    simp only [Option.pure_def, Option.some.injEq, Prod.mk.injEq] at h2
    obtain ⟨rfl, rfl⟩ := h2
    have := (ih _ _ h1).1
    simp only [List.length_cons]; refine ⟨?_, fun _ => ?_⟩ <;> omega
  | case5 => intro es m' e; simp at e
  | case6 b1 e1 b2 e2 rest hne head m ih =>
    intro es m' e
    simp only [Option.bind_eq_bind, Option.bind_eq_some_iff] at e
    obtain ⟨⟨es', m''⟩, h1, h2⟩ := e
    simp only [Option.pure_def, Option.some.injEq, Prod.mk.injEq] at h2
    obtain ⟨rfl, rfl⟩ := h2
    have := (ih _ _ h1).1
    simp only [List.length_cons] at this ⊢; refine ⟨?_, fun _ => ?_⟩ <;> omega

/-- `validate`, `batchmerkleproof.rs:35-101`; `none` is `None`.  The recursion is not bounded by any fuel: it terminates
because every round strictly decreases the number of hashes plus the number of unused proof nodes. -/
def validate (H : HashFn) (a : List Nat) (e : List Indexed) (m : List LevelNode) : Option (List Bytes) :=
  if e.length ≠ a.length then none
  else
    match h : validateLevel H ((a.map pairOf).zip (e.map Indexed.hash)) m with
    | none => none
    | some (eNew, mNew) =>
      let aNew := toSet ((a.map pairOf).map (fun b => b.2 / 2))
      if (mNew ≠ [] ∨ eNew.length > 1) ∧ aNew ≠ [] then
        validate H aNew ((aNew.zip eNew).map (fun p => { index := p.1, hash := p.2 })) mNew
      else some eNew
termination_by e.length + m.length
decreasing_by
  rename_i hlen hc
  have h1 := (validateLevel_measure H _ _ _ _ h)
  have hne : (a.map pairOf).zip (e.map Indexed.hash) ≠ [] := by
    intro h0
    have hl := congrArg List.length h0
    simp only [List.length_zip, List.length_map, List.length_nil] at hl
    have : a.length = 0 := by
      simp only [ne_eq, Classical.not_not] at hlen; omega
    have : a = [] := List.length_eq_zero_iff.1 this
    subst this
    exact hc.2 rfl
  have h2 := h1.2 hne
  simp only [List.length_zip, List.length_map] at h2 ⊢
  omega

/-- Stable insertion by index for `sort_by_key`, for `ergo-merkle-tree/src/batchmerkleproof.rs:104`. -/
def insertByIndex (x : Indexed) : List Indexed → List Indexed
  | [] => [x]
  | y :: ys => if x.index < y.index then x :: y :: ys else y :: insertByIndex x ys

/-- `e.sort_by_key(|i| i.index)` (stable), `batchmerkleproof.rs:104`. -/
def sortByIndex (l : List Indexed) : List Indexed := l.foldl (fun acc x => insertByIndex x acc) []

/-- `BatchMerkleProof::valid`, `batchmerkleproof.rs:34-113`. -/
def Batch.valid (H : HashFn) (p : Batch) (expectedRoot : Bytes) : Bool :=
  let e := sortByIndex p.indices
  match validate H (e.map Indexed.index) e p.proofs with
  | some [r] => decide (r = expectedRoot)
  | _ => false

/-! ## Codec of batch proofs -/

/-- `NodeSide as u8`, `merkleproof.rs:13-18`. -/
def Side.toByte : Side → Byte
  | .left => 0
  | .right => 1

/-- `NodeSide::try_from(u8)`, `merkleproof.rs:20-29`. -/
def Side.ofByte (b : Byte) : Option Side := if b = 0#8 then some .left else if b = 1#8 then some .right else none

/-- `u32::try_from(usize)?` followed by `put_u32_be_bytes`, `ergo-merkle-tree/src/batchmerkleproof.rs:133-137`. -/
def putUsizeU32Be (n : Nat) : Option Bytes := if n < 2 ^ 32 then some (putU32Be (BitVec.ofNat 32 n)) else none

/-- Serialization of one index entry, `batchmerkleproof.rs:136-139`. -/
def putIndexed (x : Indexed) : Option Bytes := do
  let i ← putUsizeU32Be x.index
  pure (i ++ x.hash)

/-- Serialization of one proof node, `batchmerkleproof.rs:141-147`. -/
def putLevel (l : LevelNode) : Bytes := l.hash.getD (List.replicate 32 0#8) ++ [l.side.toByte]

/-- `BatchMerkleProof::scorex_serialize`, `batchmerkleproof.rs:129-150`. -/
def Batch.ser (p : Batch) : Option Bytes := do
  let a ← putUsizeU32Be p.indices.length
  let b ← putUsizeU32Be p.proofs.length
  let is ← p.indices.mapM putIndexed
  pure (a ++ b ++ is.flatten ++ p.proofs.flatMap putLevel)

/-- `batchmerkleproof.rs:164-171`. -/
def getIndexed : Parser Indexed := do
  let i ← getU32Be
  let h ← readExact 32
  pure { index := i.toNat, hash := h }

/-- `batchmerkleproof.rs:173-190`. -/
def getLevel : Parser LevelNode := do
  let h ← readExact 32
  let b ← getU8
  let side ← Parser.ofOption (Side.ofByte b)
  if h.all (· == 0#8) then pure { hash := none, side := side } else pure { hash := some h, side := side }

/-- `BatchMerkleProof::scorex_parse`, `batchmerkleproof.rs:152-192`. -/
def Batch.parse : Parser Batch := do
  let n ← getU32Be
  let k ← getU32Be
  let is ← replicateP n.toNat getIndexed
  let ps ← replicateP k.toNat getLevel
  pure { indices := is, proofs := ps }

end Verif.Merkle
