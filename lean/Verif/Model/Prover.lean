import Verif.Model.SigmaTree

/-!
# The prover

Source: `ergotree-interpreter/src/sigma_protocol/prover.rs`, `proof_tree.rs`, `unproven_tree.rs`, `prover/hint.rs`,
`private_input.rs`.

The random generator is a parameter (`Rnd`): a value for every node position and purpose, so that every outcome of the
generator is represented (positions are distinct in the tree when randomness is drawn).
-/

namespace Verif.Sigma
open Verif

/-- `NodePosition`, `unproven_tree.rs:405-426`. -/
abbrev Position := List Nat

/-- `NodePosition::crypto_tree_prefix`, `unproven_tree.rs:416-418`. -/
def cryptoTreePrefix : Position := [0]

/-- The variants of `UnprovenConjecture`, `unproven_tree.rs:200-204`, with the `k` and `polinomial_opt` fields of
`CthresholdUnproven`, `unproven_tree.rs:503-511`. -/
inductive PKind where
  | and
  | or
  | thr (k : Byte) (poly : Option Gf.Poly)
  deriving DecidableEq

/-- `ProofTree`, `proof_tree.rs:31-36`, with `UnprovenTree`, `UnprovenLeaf`, `UnprovenConjecture` and the five node
structures of `unproven_tree.rs:28-31, 121-125, 200-204, 295-302, 346-353, 429-435, 466-472, 503-511`.  `items` are the
children of the `proposition` field. -/
inductive ProofTree (G : Type) (q : Nat) where
  | unchecked (t : Unchecked G q)
  | leaf (prop : LeafProp G) (commitment : Option (Msg G)) (randomness : Option (ZMod q)) (challenge : Option Challenge)
      (simulated : Bool) (position : Position)
  | conj (kind : PKind) (items : List (SigmaBoolean G)) (challenge : Option Challenge) (simulated : Bool)
      (position : Position) (children : List (ProofTree G q))

section
variable {G : Type} {q : Nat}

section
variable [DecidableEq G]

mutual
/-- `derive(PartialEq)` for `UncheckedTree`, `unchecked_tree.rs:32`. -/
def Unchecked.beq : Unchecked G q → Unchecked G q → Bool
  | .leaf p m e z, .leaf p' m' e' z' => decide (p = p') && decide (m = m') && decide (e = e') && decide (z = z')
  | .conj k e cs, .conj k' e' cs' => decide (k = k') && decide (e = e') && Unchecked.beqList cs cs'
  | _, _ => false
/-- List part of `Unchecked.beq`, `ergotree-interpreter/src/sigma_protocol/unchecked_tree.rs:27, 72`. -/
def Unchecked.beqList : List (Unchecked G q) → List (Unchecked G q) → Bool
  | [], [] => true
  | a :: l, b :: l' => Unchecked.beq a b && Unchecked.beqList l l'
  | _, _ => false
end

mutual
/-- `derive(PartialEq)` for `ProofTree` and `UnprovenTree`, `proof_tree.rs:30`, `unproven_tree.rs:27`. -/
def ProofTree.beq : ProofTree G q → ProofTree G q → Bool
  | .unchecked t, .unchecked t' => t.beq t'
  | .leaf p m r e s pos, .leaf p' m' r' e' s' pos' =>
    decide (p = p') && decide (m = m') && decide (r = r') && decide (e = e') && decide (s = s') && decide (pos = pos')
  | .conj k i e s pos cs, .conj k' i' e' s' pos' cs' =>
    decide (k = k') && SigmaBoolean.beqList i i' && decide (e = e') && decide (s = s') && decide (pos = pos') &&
      ProofTree.beqList cs cs'
  | _, _ => false
/-- List part of `ProofTree.beq`, `ergotree-interpreter/src/sigma_protocol/proof_tree.rs:30`. -/
def ProofTree.beqList : List (ProofTree G q) → List (ProofTree G q) → Bool
  | [], [] => true
  | a :: l, b :: l' => ProofTree.beq a b && ProofTree.beqList l l'
  | _, _ => false
end
end

namespace ProofTree

/-- `UnprovenTree::simulated`, `unproven_tree.rs:39-44, 170-175, 263-269`; an unchecked tree has no such flag (the code
only asks for it after `cast_to_unp` or a match on `UnprovenTree`). -/
def simulated : ProofTree G q → Bool
  | unchecked _ => true
  | leaf _ _ _ _ s _ => s
  | conj _ _ _ s _ _ => s

/-- `UnprovenTree::is_real`, `unproven_tree.rs:35-37`; false for unchecked trees, as in the matches
`ProofTree::UnprovenTree(ut) if ut.is_real()`, `prover.rs:798, 856`. -/
def isReal (t : ProofTree G q) : Bool := !t.simulated

/-- `UnprovenTree::with_simulated`, `unproven_tree.rs:60-65`. -/
def withSimulated (s : Bool) : ProofTree G q → ProofTree G q
  | unchecked t => unchecked t
  | leaf p m r e _ pos => leaf p m r e s pos
  | conj k i e _ pos cs => conj k i e s pos cs

/-- `UnprovenTree::with_position`, `unproven_tree.rs:46-51`. -/
def withPosition (pos : Position) : ProofTree G q → ProofTree G q
  | unchecked t => unchecked t
  | leaf p m r e s _ => leaf p m r e s pos
  | conj k i e s _ cs => conj k i e s pos cs

/-- `ProofTree::with_challenge`, `proof_tree.rs:40-45`, `unproven_tree.rs:53-58`, `unchecked_tree.rs:56-61`. -/
def withChallenge (e : Challenge) : ProofTree G q → ProofTree G q
  | unchecked (.leaf p m _ z) => unchecked (.leaf p m e z)
  | unchecked (.conj k _ cs) => unchecked (.conj k e cs)
  | leaf p m r _ s pos => leaf p m r (some e) s pos
  | conj k i _ s pos cs => conj k i (some e) s pos cs

/-- `ProofTree::challenge`, `proof_tree.rs:54-59`, `unproven_tree.rs:74-79`. -/
def challenge : ProofTree G q → Option Challenge
  | unchecked t => some t.challenge
  | leaf _ _ _ e _ _ => e
  | conj _ _ e _ _ _ => e

/-- `UnprovenTree::position`, `unproven_tree.rs:81-86`. -/
def position : ProofTree G q → Position
  | unchecked _ => []
  | leaf _ _ _ _ _ pos => pos
  | conj _ _ _ _ pos _ => pos

/-- The test in `cast_to_unp`, `prover.rs:362`. -/
def isUnproven : ProofTree G q → Bool
  | unchecked _ => false
  | _ => true

end ProofTree

/-- `try_mapped`, from the `bounded-vec` crate: apply in order, stop at the first error, used at
`ergotree-interpreter/src/sigma_protocol/prover.rs:319, 361, 1114`. -/
def tryMap {α β : Type} (f : α → Outcome β) : List α → Outcome (List β)
  | [] => .ok []
  | a :: l => do
    let b ← f a
    let bs ← tryMap f l
    pure (b :: bs)

mutual
/-- `rewrite_bu`, `proof_tree.rs:149-242`.  Simplification: the rewriting inside an unchecked conjecture is left out;
the only function passed (`mark_real`) leaves unchecked trees alone, which makes it the identity. -/
def rewriteBu (f : ProofTree G q → Outcome (Option (ProofTree G q))) : ProofTree G q → Outcome (ProofTree G q)
  | .unchecked t => do
    let r ← f (.unchecked t)
    pure (r.getD (.unchecked t))
  | .leaf p m r e s pos => do
    let x ← f (.leaf p m r e s pos)
    pure (x.getD (.leaf p m r e s pos))
  | .conj k i e s pos cs => do
    let cs' ← rewriteBuList f cs
    let x ← f (.conj k i e s pos cs')
    pure (x.getD (.conj k i e s pos cs'))
/-- `children.try_mapped(|c| rewrite_bu(c, f))`, `ergotree-interpreter/src/sigma_protocol/proof_tree.rs:154-213`. -/
def rewriteBuList (f : ProofTree G q → Outcome (Option (ProofTree G q))) : List (ProofTree G q) → Outcome (List (ProofTree G q))
  | [] => .ok []
  | c :: cs => do
    let b ← rewriteBu f c
    let bs ← rewriteBuList f cs
    pure (b :: bs)
end

/-- `rewrite_td`, `proof_tree.rs:246-339`.  Simplifications: the recursion is cut off by `fuel` (the functions passed
never make a tree deeper, so the depth of the proposition suffices; `panic` when it does not); the rewriting inside an
unchecked conjecture is left out (the functions passed leave unchecked trees alone or fail on them). -/
def rewriteTd (f : ProofTree G q → Outcome (Option (ProofTree G q))) : Nat → ProofTree G q → Outcome (ProofTree G q)
  | 0, _ => .panic
  | fuel + 1, t => do
    let r ← f t
    match r.getD t with
    | .conj k i e s pos cs => do
      let cs' ← tryMap (rewriteTd f fuel) cs
      pure (.conj k i e s pos cs')
    | t' => pure t'

/-- `cast_to_unp`, `prover.rs:358-370`. -/
def castToUnp (cs : List (ProofTree G q)) : Outcome (List (ProofTree G q)) :=
  if cs.all ProofTree.isUnproven then .ok cs else .err

end

/-! ## Secrets and hints -/

/-- `PrivateInput`, `private_input.rs`: `DlogProverInput { w }` or `DhTupleProverInput { w, common_input }`. -/
inductive Secret (G : Type) (q : Nat) where
  | dlog (w : ZMod q)
  | dht (w : ZMod q) (g h u v : G)

/-- `Hint` with `SecretProven` and `CommitmentHint`, `prover/hint.rs:19-177`. -/
inductive Hint (G : Type) (q : Nat) where
  | realProof (image : SigmaBoolean G) (challenge : Challenge) (tree : Unchecked G q) (position : Position)
  | simulatedProof (image : SigmaBoolean G) (challenge : Challenge) (tree : Unchecked G q) (position : Position)
  | ownCommitment (image : SigmaBoolean G) (secret : ZMod q) (commitment : Msg G) (position : Position)
  | realCommitment (image : SigmaBoolean G) (commitment : Msg G) (position : Position)
  | simulatedCommitment (image : SigmaBoolean G) (commitment : Msg G) (position : Position)

section
variable {G : Type} {q : Nat}

/-- `HintsBag::commitments` as pairs of position and commitment, `prover/hint.rs:251-263, 181-196`. -/
def hintCommitments (hs : List (Hint G q)) : List (Position × Msg G) :=
  hs.filterMap fun
    | .ownCommitment _ _ m pos => some (pos, m)
    | .realCommitment _ m pos => some (pos, m)
    | .simulatedCommitment _ m pos => some (pos, m)
    | _ => none

/-- `HintsBag::own_commitments` as pairs of position and secret randomness, `prover/hint.rs:296-308`. -/
def hintOwn (hs : List (Hint G q)) : List (Position × ZMod q) :=
  hs.filterMap fun
    | .ownCommitment _ r _ pos => some (pos, r)
    | _ => none

/-- `HintsBag::real_proofs` as pairs of position and tree, `prover/hint.rs:266-278`. -/
def hintRealProofs (hs : List (Hint G q)) : List (Position × Unchecked G q) :=
  hs.filterMap fun
    | .realProof _ _ t pos => some (pos, t)
    | _ => none

/-- `HintsBag::simulated_proofs` as pairs of image and tree, `prover/hint.rs:324-336`. -/
def hintSimulatedProofs (hs : List (Hint G q)) : List (SigmaBoolean G × Unchecked G q) :=
  hs.filterMap fun
    | .simulatedProof i _ t _ => some (i, t)
    | _ => none

/-- `HintsBag::proofs` as pairs of position and challenge, `prover/hint.rs:339-351, 92-105`. -/
def hintProofs (hs : List (Hint G q)) : List (Position × Challenge) :=
  hs.filterMap fun
    | .realProof _ e _ pos => some (pos, e)
    | .simulatedProof _ e _ pos => some (pos, e)
    | _ => none

/-- `HintsBag::real_images`, `prover/hint.rs:311-321` (real proofs first, then real commitments). -/
def hintRealImages (hs : List (Hint G q)) : List (SigmaBoolean G) :=
  (hs.filterMap fun
    | .realProof i _ _ _ => some i
    | _ => none) ++
  (hs.filterMap fun
    | .realCommitment i _ _ => some i
    | _ => none)

/-- `iter().find(|x| x.position == pos)`, `ergotree-interpreter/src/sigma_protocol/prover.rs:476, 608, 670`. -/
def findPos {α : Type} (l : List (Position × α)) (pos : Position) : Option α :=
  (l.find? fun x => decide (x.1 = pos)).map Prod.snd

/-- Everything `prove_to_unchecked` draws from `secure_rng`: challenges of simulated nodes
(`Challenge::secure_random`, `prover.rs:478, 527`), random bytes for polynomial coefficients (`prover.rs:575`), the scalar
of `simulate` (`dlog_protocol.rs:63`, `dht_protocol.rs:68`), the scalar of `first_message` (`dlog_protocol.rs:82`,
`dht_protocol.rs:95`) and the fallback response (`prover.rs:929, 1006`), by node position. -/
structure Rnd (q : Nat) where
  challenge : Position → Challenge
  bytes : Position → Nat → Byte
  simZ : Position → ZMod q
  realR : Position → ZMod q
  fallbackZ : Position → ZMod q

section
variable [DecidableEq G] [AddCommGroup G] [Module (ZMod q) G]

/-- `PrivateInput::public_image`, `private_input.rs`. -/
def Secret.image (C : Curve G) : Secret G q → LeafProp G
  | .dlog w => .dlog (expo C C.gen w)
  | .dht _ g h u v => .dht g h u v

/-- Everything the prover functions use besides the tree, the arguments of `ergotree-interpreter/src/sigma_protocol/prover.rs:197-242`. -/
structure ProverEnv (G : Type) (q : Nat) where
  curve : Curve G
  secrets : List (Secret G q)
  hints : List (Hint G q)
  rnd : Rnd q

variable (E : ProverEnv G q)

/-! ## Steps 1 and 3 -/

/-- The closure of `mark_real`, `prover.rs:256-310`. -/
def markStep : ProofTree G q → Outcome (Option (ProofTree G q))
  | .unchecked _ => .ok none
  | .leaf p m r e s pos =>
    let secretKnown := (hintRealImages E.hints).any (fun i => i.beq p.toSB) ||
      E.secrets.any (fun s => decide (s.image E.curve = p))
    .ok (some ((ProofTree.leaf p m r e s pos).withSimulated (!secretKnown)))
  | .conj .and i e _ pos cs => do
    let us ← castToUnp cs
    pure (some (.conj .and i e (us.any ProofTree.simulated) pos cs))
  | .conj .or i e _ pos cs => do
    let us ← castToUnp cs
    pure (some (.conj .or i e (us.all ProofTree.simulated) pos cs))
  | .conj (.thr k poly) i e _ pos cs => do
    let us ← castToUnp cs
    pure (some (.conj (.thr k poly) i e (decide (us.countP ProofTree.isReal < k.toNat)) pos cs))

/-- The final `try_into::<UnprovenTree>` of the passes, `prover.rs:311-312, 450-453, 763-766`. -/
def expectUnproven (t : ProofTree G q) : Outcome (ProofTree G q) := if t.isUnproven then .ok t else .err

/-- `mark_real`, `prover.rs:251-313`. -/
def markReal (t : ProofTree G q) : Outcome (ProofTree G q) := do
  let r ← rewriteBu (markStep E) t
  expectUnproven r

/-- The children part of `set_positions`, `prover.rs:316-332`. -/
def setPositions (pos : Position) (cs : List (ProofTree G q)) : Outcome (List (ProofTree G q)) := do
  let us ← castToUnp cs
  pure (us.mapIdx fun i c => c.withPosition (pos ++ [i]))

/-- The children part of `make_cor_children_simulated`, `prover.rs:338-356`. -/
def makeCorChildrenSimulated (cs : List (ProofTree G q)) : Outcome (List (ProofTree G q)) := do
  let us ← castToUnp cs
  match us.find? ProofTree.isReal with
  | none => .err
  | some first => pure (us.map fun c => if c.beq first || c.simulated then c else c.withSimulated true)

/-- The loop marking all but the first `k` real children, `prover.rs:423-442`; `count` is `count_of_real`. -/
def keepReal (k : Nat) : Nat → List (ProofTree G q) → List (ProofTree G q)
  | _, [] => []
  | count, c :: cs =>
    if c.isReal then
      (if k < count + 1 then c.withSimulated true else c) :: keepReal k (count + 1) cs
    else c :: keepReal k count cs

/-- The new marks of the children in `polish_simulated`, `prover.rs:385-392, 397-406, 411-443`. -/
def polishChildren (kind : PKind) (s : Bool) (us : List (ProofTree G q)) : Outcome (List (ProofTree G q)) :=
  if s then .ok (us.map (ProofTree.withSimulated true))
  else match kind with
    | .and => .ok us
    | .or => makeCorChildrenSimulated us
    | .thr k _ => .ok (keepReal k.toNat 0 us)

/-- The closure of `polish_simulated`, `prover.rs:379-449`. -/
def polishStep : ProofTree G q → Outcome (Option (ProofTree G q))
  | .unchecked _ => .ok none
  | .leaf _ _ _ _ _ _ => .ok none
  | .conj kind i e s pos cs => do
    let us ← castToUnp cs
    let marked ← polishChildren kind s us
    let placed ← setPositions pos marked
    pure (some (.conj kind i e s pos placed))

/-- `polish_simulated`, `prover.rs:375-454`. -/
def polishSimulated (fuel : Nat) (t : ProofTree G q) : Outcome (ProofTree G q) := do
  let r ← rewriteTd polishStep fuel t
  expectUnproven r

/-! ## Steps 4 to 6 -/

/-- `step4_real_conj` for OR and THRESHOLD, `prover.rs:466-489`. -/
def step4RealChildren (cs : List (ProofTree G q)) : Outcome (List (ProofTree G q)) := do
  let us ← castToUnp cs
  pure (us.map fun c =>
    if c.isReal then c
    else c.withChallenge ((findPos (hintProofs E.hints) c.position).getD (E.rnd.challenge c.position)))

/-- The children of `step4_simulated_or_conj`, `prover.rs:522-540`: the tail gets random challenges, the head the XOR. -/
def step4OrChildren (e : Challenge) : List (ProofTree G q) → List (ProofTree G q)
  | [] => []
  | head :: tail =>
    let tail' := tail.map fun c => c.withChallenge (E.rnd.challenge c.position)
    let x := tail'.foldl (fun acc c => match c.challenge with | some ec => acc.xor ec | none => acc) e
    head.withChallenge x :: tail'

/-- The children of `step4_simulated_threshold_conj`, `prover.rs:577-586`; `i` counts from 0. -/
def step4ThrChildren (poly : Gf.Poly) : Nat → List (ProofTree G q) → Outcome (List (ProofTree G q))
  | _, [] => .ok []
  | i, c :: cs => do
    let v ← poly.evaluate (BitVec.ofNat 8 (i + 1))
    let rest ← step4ThrChildren poly (i + 1) cs
    pure (c.withChallenge (.ofGf v) :: rest)

/-- `CthresholdUnproven::with_polynomial`, `unproven_tree.rs:538-550`; the subtraction panics on underflow. -/
def withPolynomial (k : Byte) (items : List (SigmaBoolean G)) (poly : Gf.Poly) : Outcome PKind := do
  let bs ← poly.toBytes
  if items.length < k.toNat then .panic
  else if bs.length = (items.length - k.toNat) * 24 then pure (.thr k (some poly)) else .err

/-- `step5_schnorr` and `step5_diffie_hellman_tuple`, `prover.rs:597-715`. -/
def step5 (p : LeafProp G) (r : Option (ZMod q)) (e : Option Challenge) (s : Bool) (pos : Position) :
    Outcome (Option (ProofTree G q)) :=
  match findPos (hintCommitments E.hints) pos with
  | some m =>
    match p, m with
    | .dlog _, .dlog _ => .ok (some (.leaf p (some m) r e s pos))
    | .dht _ _ _ _, .dht _ _ => .ok (some (.leaf p (some m) r e s pos))
    | _, _ => .err
  | none =>
    if s then
      match e with
      | some e => .ok (some (.unchecked (.leaf p (some (simulate E.curve p e (E.rnd.simZ pos))) e (E.rnd.simZ pos))))
      | none => .err
    else .ok (some (.leaf p (some (firstMessage E.curve p (E.rnd.realR pos))) (some (E.rnd.realR pos)) e s pos))

/-- The closure of `simulate_and_commit`, `prover.rs:728-762`, with `step4_real_conj` (456-492),
`step4_simulated_and_conj` (494-514), `step4_simulated_or_conj` (516-559), `step4_simulated_threshold_conj` (561-595). -/
def commitStep : ProofTree G q → Outcome (Option (ProofTree G q))
  | .unchecked _ => .ok none
  | .leaf p _ r e s pos => step5 E p r e s pos
  | .conj .and i e s pos cs =>
    if !s then .ok none
    else match e with
      | some e => .ok (some (.conj .and i (some e) s pos (cs.map (ProofTree.withChallenge e))))
      | none => .err
  | .conj .or i e s pos cs =>
    if !s then do
      let cs' ← step4RealChildren E cs
      pure (some (.conj .or i e s pos cs'))
    else match e with
      | some e => do
        let us ← castToUnp cs
        pure (some (.conj .or i (some e) s pos (step4OrChildren E e us)))
      | none => .err
  | .conj (.thr k poly) i e s pos cs =>
    if !s then do
      let cs' ← step4RealChildren E cs
      pure (some (.conj (.thr k poly) i e s pos cs'))
    else match e with
      | some e => do
        let us ← castToUnp cs
        if cs.length < k.toNat then .panic
        else do
          let poly ← polyFromBytes e ((List.range ((cs.length - k.toNat) * 24)).map (E.rnd.bytes pos))
          let cs' ← step4ThrChildren poly 0 us
          let kind ← withPolynomial k i poly
          pure (some (.conj kind i (some e) s pos cs'))
      | none => .err

/-- `simulate_and_commit`, `prover.rs:724-767`. -/
def simulateAndCommit (fuel : Nat) (t : ProofTree G q) : Outcome (ProofTree G q) := do
  let r ← rewriteTd (commitStep E) fuel t
  expectUnproven r

/-! ## Step 7 -/

/-- `conjecture_type` and `k` of an unproven conjecture, `unproven_tree.rs:277-283`, `fiat_shamir.rs:178-185`. -/
def PKind.fsBytes : PKind → Bytes
  | and => [0#8]
  | or => [1#8]
  | thr k _ => [2#8, k]

mutual
/-- `fiat_shamir_write_bytes` on a proof tree, `fiat_shamir.rs:129-193`. -/
def fsProof (pc : PointCodec G) : ProofTree G q → Outcome Bytes
  | .unchecked t => fsUnchecked pc t
  | .leaf p m _ _ _ _ => fsLeaf pc p m
  | .conj kind _ _ _ _ cs => do
    let bs ← fsProofList pc cs
    pure (0#8 :: (kind.fsBytes ++ putI16Be cs.length ++ bs))
/-- The loop at lines 188-190, `ergotree-interpreter/src/sigma_protocol/fiat_shamir.rs:188-190`. -/
def fsProofList (pc : PointCodec G) : List (ProofTree G q) → Outcome Bytes
  | [] => .ok []
  | c :: cs => do
    let b ← fsProof pc c
    let bs ← fsProofList pc cs
    pure (b ++ bs)
end

/-! ## Step 9 -/

/-- `step9_real_or`, `prover.rs:791-800`: the children. -/
def step9OrChildren (e : Challenge) (cs : List (ProofTree G q)) : List (ProofTree G q) :=
  let ch := cs.foldl (fun acc c => match c.challenge with | some ec => acc.xor ec | none => acc) e
  cs.map fun c => if c.isReal then c.withChallenge ch else c

/-- The loop collecting points and values in `step9_real_threshold`, `prover.rs:829-846`; `i` counts from 0. -/
def step9Points : Nat → List (ProofTree G q) → Outcome (List Byte × List Gf.Gf)
  | _, [] => .ok ([], [])
  | i, .unchecked (.conj _ _ _) :: _ => .err
  | i, c :: cs => do
    let (ps, vs) ← step9Points (i + 1) cs
    match c.challenge with
    | some e => pure (BitVec.ofNat 8 (i + 1) :: ps, e.toGf :: vs)
    | none => pure (ps, vs)

/-- One child in `step9_real_threshold`, `prover.rs:854-860`. -/
def step9ThrChild (poly : Gf.Poly) (i : Nat) (c : ProofTree G q) : Outcome (ProofTree G q) :=
  if c.isReal then do
    let v ← poly.evaluate (BitVec.ofNat 8 (i + 1))
    pure (c.withChallenge (.ofGf v))
  else .ok c

/-- The children of `step9_real_threshold`, `prover.rs:851-861`; `i` counts from 0. -/
def step9ThrChildren (poly : Gf.Poly) : Nat → List (ProofTree G q) → Outcome (List (ProofTree G q))
  | _, [] => .ok []
  | i, c :: cs => do
    let c' ← step9ThrChild poly i c
    let rest ← step9ThrChildren poly (i + 1) cs
    pure (c' :: rest)

/-- The response with a private key: the randomness of an own commitment in the hints bag has precedence,
`prover.rs:886-905, 963-984`. -/
def step9Own (w : ZMod q) (r : Option (ZMod q)) (e : Challenge) (pos : Position) : Outcome (ZMod q) :=
  match findPos (hintOwn E.hints) pos, r with
  | some r, _ => .ok (secondMessage w r e)
  | none, some r => .ok (secondMessage w r e)
  | none, none => .err

/-- The response of a real leaf, `prover.rs:881-933, 958-1010`. -/
def step9Response (p : LeafProp G) (r : Option (ZMod q)) (e : Challenge) (pos : Position) : Outcome (ZMod q) :=
  match E.secrets.find? (fun s => decide (s.image E.curve = p)), p with
  | some (.dlog w), .dlog _ => step9Own E w r e pos
  | some (.dht w _ _ _ _), .dht _ _ _ _ => step9Own E w r e pos
  | some _, _ => .err
  | none, p =>
    match findPos (hintRealProofs E.hints) pos, p with
    | some (.leaf (.dlog _) _ _ z), .dlog _ => .ok z
    | some (.leaf (.dht _ _ _ _) _ _ z), .dht _ _ _ _ => .ok z
    | some _, _ => .err
    | none, _ => .ok (E.rnd.fallbackZ pos)

/-- `step9_real_schnorr` and `step9_real_dh_tuple`, `prover.rs:872-1023`. -/
def step9Leaf (p : LeafProp G) (r : Option (ZMod q)) (e : Option Challenge) (pos : Position) :
    Outcome (Option (ProofTree G q)) :=
  match e with
  | none => .err
  | some e => do
    let z ← step9Response E p r e pos
    pure (some (.unchecked (.leaf p none e z)))

/-- The closure of `proving`, `prover.rs:1035-1082`, with `step9_real_and` (769-783), `step9_real_or` (785-813) and
`step9_real_threshold` (815-870). -/
def provingStep : ProofTree G q → Outcome (Option (ProofTree G q))
  | .unchecked (.leaf _ _ _ _) => .ok none
  | .unchecked (.conj _ _ _) => .err
  | .leaf p m r e s pos =>
    if !s then step9Leaf E p r e pos
    else match (hintSimulatedProofs E.hints).find? (fun x => x.1.beq p.toSB) with
      | some x => .ok (some (.unchecked x.2))
      | none => .ok (some (.leaf p m r e s pos))
  | .conj .and i e s pos cs =>
    if s then .ok none
    else match e with
      | some e => .ok (some (.conj .and i (some e) s pos (cs.map (ProofTree.withChallenge e))))
      | none => .err
  | .conj .or i e s pos cs =>
    if s then .ok none
    else match e with
      | some e => .ok (some (.conj .or i (some e) s pos (step9OrChildren e cs)))
      | none => .err
  | .conj (.thr k poly) i e s pos cs =>
    if s then .ok none
    else match e with
      | some e => do
        let (ps, vs) ← step9Points 0 cs
        let poly ← Gf.interpolate ps vs e.toGf
        let cs' ← step9ThrChildren poly 0 cs
        let kind ← withPolynomial k i poly
        pure (some (.conj kind i (some e) s pos cs'))
      | none => .err

/-- `proving`, `prover.rs:1030-1083`. -/
def proving (fuel : Nat) (t : ProofTree G q) : Outcome (ProofTree G q) := rewriteTd (provingStep E) fuel t

mutual
/-- `convert_to_unproven`, `prover.rs:1085-1143`. -/
def convertToUnproven : SigmaBoolean G → Outcome (ProofTree G q)
  | .trivial _ => .err
  | .dlog h => .ok (.leaf (.dlog h) none none none false cryptoTreePrefix)
  | .dht g h u v => .ok (.leaf (.dht g h u v) none none none false cryptoTreePrefix)
  | .cand items => do
    let cs ← convertToUnprovenList items
    pure (.conj .and items none false cryptoTreePrefix cs)
  | .cor items => do
    let cs ← convertToUnprovenList items
    pure (.conj .or items none false cryptoTreePrefix cs)
  | .cth k items => do
    let cs ← convertToUnprovenList items
    pure (.conj (.thr k none) items none false cryptoTreePrefix cs)
/-- `items.try_mapped(convert_to_unproven)`, `ergotree-interpreter/src/sigma_protocol/prover.rs:1114, 1124, 1132`. -/
def convertToUnprovenList : List (SigmaBoolean G) → Outcome (List (ProofTree G q))
  | [] => .ok []
  | a :: l => do
    let t ← convertToUnproven a
    let ts ← convertToUnprovenList l
    pure (t :: ts)
end

mutual
/-- `convert_to_unchecked`, `prover.rs:1145-1190`. -/
def convertToUnchecked : ProofTree G q → Outcome (Unchecked G q)
  | .unchecked (.leaf p m e z) => .ok (.leaf p m e z)
  | .unchecked (.conj _ _ _) => .err
  | .leaf _ _ _ _ _ _ => .err
  | .conj .and _ (some e) _ _ cs => do
    let us ← convertToUncheckedList cs
    pure (.conj .and e us)
  | .conj .or _ (some e) _ _ cs => do
    let us ← convertToUncheckedList cs
    pure (.conj .or e us)
  | .conj (.thr k poly) _ (some e) _ _ cs => do
    let us ← convertToUncheckedList cs
    match poly with
    | some poly => pure (.conj (.thr k poly) e us)
    | none => .err
  | .conj _ _ none _ _ _ => .err
/-- `children.try_mapped(convert_to_unchecked)`, `ergotree-interpreter/src/sigma_protocol/prover.rs:1163`. -/
def convertToUncheckedList : List (ProofTree G q) → Outcome (List (Unchecked G q))
  | [] => .ok []
  | c :: cs => do
    let u ← convertToUnchecked c
    let us ← convertToUncheckedList cs
    pure (u :: us)
end

/-- `prove_to_unchecked`, `prover.rs:197-242`. -/
def proveToUnchecked (fuel : Nat) (tree : ProofTree G q) (message : Bytes) : Outcome (Unchecked G q) := do
  let step1 ← markReal E tree
  if !step1.isReal then .err
  else do
    let step3 ← polishSimulated fuel step1
    let step6 ← simulateAndCommit E fuel step3
    let s ← fsProof E.curve.codec step6
    let step8 := step6.withChallenge (fsHash E.curve.hash (s ++ message))
    let step9 ← proving E fuel step8
    convertToUnchecked step9

mutual
/-- Depth of a proposition (used as fuel of `rewriteTd`; not in the code), of the propositions of
`ergotree-interpreter/src/sigma_protocol/prover.rs:1085-1143`. -/
def sbDepth {G : Type} : SigmaBoolean G → Nat
  | .trivial _ => 1
  | .dlog _ => 1
  | .dht _ _ _ _ => 1
  | .cand l => sbDepthList l + 1
  | .cor l => sbDepthList l + 1
  | .cth _ l => sbDepthList l + 1
/-- Depth of the deepest proposition in a list, not in the code, see `sbDepth`; for
`ergotree-interpreter/src/sigma_protocol/prover.rs:1085-1143`. -/
def sbDepthList {G : Type} : List (SigmaBoolean G) → Nat
  | [] => 0
  | a :: l => max (sbDepth a) (sbDepthList l)
end

/-- `Prover::generate_proof`, `prover.rs:166-185`; `ProofBytes::Empty` is the empty list. -/
def generateProof (sb : SigmaBoolean G) (message : Bytes) : Outcome Bytes :=
  match sb with
  | .trivial true => .ok []
  | .trivial false => .err
  | sb => do
    let tree ← convertToUnproven sb
    let t ← proveToUnchecked E (sbDepth sb) tree message
    serializeSig t

end
end

end Verif.Sigma
