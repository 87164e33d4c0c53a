import Verif.Model.Nipopow

/-!
# Generating chains for simulations

Source: `ergo-chain-generation/src/chain_generation.rs`, `lib.rs`.  What the code draws at random is given from outside.
-/

namespace Verif.ChainGen
open Merkle
variable {G : Type}

/-- `ErgoFullBlock`, `ergo-chain-generation/src/lib.rs:33-38`. -/
structure Block (G : Type) where
  header : Header G
  extension : List ExtField
  deriving DecidableEq

/-- What `transactions_root` takes from a transaction, `chain_generation.rs:327-370`: `bytes_to_sign()` and the proofs of its inputs. -/
structure Tx where
  toSign : Bytes
  proofs : List Bytes

/-- What is drawn at random for one block: the bytes behind `ad_proofs_root` and the one-time secret,
`chain_generation.rs:144-151, 204`. -/
structure Rand where
  adProofs : Bytes
  x : Nat

/-- What the generator works with: the kind of build, `blake2b256_hash`, the level computation, point encoding, `pub x` the public
image of a secret, the secret of `default_miner_secret` (`lib.rs:56-68`), `EcPoint::default()`, the transactions that every block has
(`chain_generation.rs:48-79`; simplification: they are given, not built), and how often `numeric_hash` may hash. -/
structure Env (G : Type) where
  mode : Mode
  H : HashFn
  lvl : Int → Int → BitVec 32
  pc : PointCodec G
  pub : Nat → G
  sk : Nat
  dummy : G
  txs : List Tx
  fuel : Nat

/-- `NipopowAlgos::default()`, `ergo-nipopow/src/nipopow_algos.rs:40-48`. -/
def Env.pow (E : Env G) : Pow := { H := E.H, P := .default, lvl := E.lvl }

/-- `transactions_root`, `chain_generation.rs:327-370`. -/
def transactionsRoot (H : HashFn) (txs : List Tx) (version : Byte) : Outcome Bytes := do
  let t ← (if version = 1 then Tree.new H (txs.map fun t => Node.fromBytes H (H t.toSign))
    else Tree.new H (txs.map fun t => Node.fromBytes H (H t.toSign ++ t.proofs.flatten)))
  pure (t.rootHashSpecial H)

/-- The loop of `numeric_hash`, `chain_generation.rs:317-324`.  The loop has no bound; `.err` stands for "has not ended after `fuel`
rounds". -/
def numericLoop (H : HashFn) (range order : Nat) : Nat → Bytes → Outcome Nat
  | 0, _ => .err
  | fuel + 1, hashed =>
    if beNat hashed < range then .ok (beNat hashed % order) else numericLoop H range order fuel (H hashed)

/-- `numeric_hash`, `chain_generation.rs:310-325`. -/
def numericHash (H : HashFn) (fuel : Nat) (input : Bytes) (range order : Nat) : Outcome Nat :=
  numericLoop H range order fuel (H input)

/-- `generate_element`, `chain_generation.rs:280-308`. -/
def generateElement (H : HashFn) (fuel : Nat) (version : Byte) (msg pk w ix hb : Bytes) : Outcome Nat :=
  if version = 1 then
    numericHash H fuel (ix ++ PowScheme.calcBigM ++ pk ++ msg ++ w) (2 ^ 256 / curveOrder.toNat * curveOrder.toNat) curveOrder.toNat
  else .ok (beNat ((H (ix ++ hb ++ PowScheme.calcBigM)).drop 1))

/-- The sum over the indexes, `chain_generation.rs:238-247`. -/
def sumElements (H : HashFn) (fuel : Nat) (version : Byte) (msg pk w hb : Bytes) : List Nat → Outcome Nat
  | [] => .ok 0
  | i :: l => do
    let e ← generateElement H fuel version msg pk w (natBe 4 i) hb
    let s ← sumElements H fuel version msg pk w hb l
    pure (e + s)

/-- The bytes of the nonce with number `j`, `chain_generation.rs:215-216, 221-226`: `i64::MIN + j` as a big-endian `i64`. -/
def nonceBytes (j : Nat) : Bytes := natBe 8 ((2 ^ 63 + j) % 2 ^ 64)

/-- The seed for a nonce, `chain_generation.rs:227-236`; an error of `calc_seed_v2` is unwrapped. -/
def seedOf (H : HashFn) (version : Byte) (N : Nat) (msg nonce hb : Bytes) : Outcome Bytes :=
  if version = 1 then .ok (H (msg ++ nonce))
  else match PowScheme.calcSeed H N msg nonce hb with
    | .ok s => .ok s
    | _ => .panic

/-- `d` for a nonce, `chain_generation.rs:227-252`.  `modpow` rounds like `mod_floor`. -/
def distance (E : Env G) [DecidableEq G] (version : Byte) (msg hb : Bytes) (N x : Nat) (nonce : Bytes) : Outcome Int := do
  let seed ← seedOf E.H version N msg nonce hb
  let idx ← PowScheme.default.genIndexes seed N
  let sum ← sumElements E.H E.fuel version msg (putPoint E.pc (E.pub E.sk)) (putPoint E.pc (E.pub x)) hb idx
  pure (if version = 1 then ((x : Int) * sum - E.sk).emod curveOrder else beNat (E.H (toSignedBe sum)))

/-- The loop over the nonces, `chain_generation.rs:221-272`: the first nonce whose `d` is at most the target; `count` nonces are left,
`j` is the next. -/
def search (target : Int) (d : Bytes → Outcome Int) : Nat → Nat → Outcome (Option (Bytes × Int))
  | 0, _ => .ok none
  | count + 1, j => do
    let x ← d (nonceBytes j)
    if x ≤ target then .ok (some (nonceBytes j, x)) else search target d count (j + 1)

/-- Unchecked `u32` addition of 1, `chain_generation.rs:156`. -/
def nextHeight (m : Mode) (h : BitVec 32) : Outcome (BitVec 32) :=
  if h.toNat + 1 < 2 ^ 32 then .ok (h + 1)
  else match m with
    | .debug => .panic
    | .release => .ok (h + 1)

/-- Parent id and height, `chain_generation.rs:155-159`. -/
def parentOf (m : Mode) : Option (Header G) → Outcome (Bytes × BitVec 32)
  | some p => do
    let h ← nextHeight m p.height
    pure (p.id, h)
  | none => .ok (List.replicate 32 0, 1)

/-- `n_bits`, `chain_generation.rs:140`. -/
def startBits : BitVec 64 := 16842752

/-- The header before the search, `chain_generation.rs:176-196`. -/
def draft (E : Env G) (version : Byte) (timestamp : BitVec 64) (parent : Bytes × BitVec 32) (adRoot txRoot extRoot : Bytes) : Header G :=
  { version := version, id := List.replicate 32 0, parentId := parent.1, adProofsRoot := adRoot,
    stateRoot := List.replicate 33 0, transactionRoot := txRoot, timestamp := timestamp, nBits := startBits,
    height := parent.2, extensionRoot := extRoot,
    solution := { minerPk := E.dummy, onetimePk := none, nonce := [], distance := some 0 }, votes := [0, 0, 0] }

/-- The header with the solution found and its id, `chain_generation.rs:255-270`; serialization errors are unwrapped.  Without a
solution the header stays as it is. -/
def sealed (E : Env G) [DecidableEq G] (x : Nat) (h : Header G) : Option (Bytes × Int) → Outcome (Header G)
  | none => .ok h
  | some (nonce, d) =>
    let sol : AutolykosSolution G :=
      { minerPk := E.pub E.sk, onetimePk := some (E.pub x), nonce := nonce, distance := some d }
    match sol.ser E.pc h.version with
    | .ok s => .ok { h with id := E.H (h.serWithoutPow ++ s), solution := sol }
    | _ => .panic

/-- `prove_block`, `chain_generation.rs:132-278`. -/
def proveBlock (E : Env G) [DecidableEq G] (parent : Option (Header G)) (version : Byte) (timestamp : BitVec 64)
    (ext : List ExtField) (r : Rand) : Outcome (Block G) := do
  let txRoot ← transactionsRoot E.H E.txs version
  let ph ← parentOf E.mode parent
  let t ← extensionTree E.H ext
  let h := draft E version timestamp ph (E.H r.adProofs) txRoot (t.rootHashSpecial E.H)
  let target := curveOrder.tdiv (decodeCompact h.nBits)
  let N := PowScheme.default.calcBigN version h.height
  let found ← search target (distance E version (E.H h.serWithoutPow) (natBe 4 h.height.toNat) N r.x) (2 ^ 64 - 1) 0
  let h' ← sealed E r.x h found
  pure { header := h', extension := ext }

/-- The interlinks for the next block, `chain_generation.rs:107-116`: errors give the empty vector (`unwrap_or_default`). -/
def nextLinks (E : Env G) : Option (Block G) → Outcome (List Bytes)
  | none => .ok []
  | some b =>
    match unpackInterlinks b.extension with
    | .ok l =>
      (match updateInterlinks E.pow b.header l with
        | .ok r => .ok r
        | .err => .ok []
        | .panic => .panic)
    | .err => .ok []
    | .panic => .panic

/-- `next_block`, `chain_generation.rs:101-130`, with an empty extension as `block_stream` gives it. -/
def nextBlock (E : Env G) [DecidableEq G] (prev : Option (Block G)) (version : Byte) (r : Rand) : Outcome (Block G) := do
  let links ← nextLinks E prev
  let ext ← (if links = [] then .ok [] else packInterlinks E.mode links)
  proveBlock E (prev.map Block.header) version 0 ext r

/-- The items of `successors`, `chain_generation.rs:91-98`: `next()` makes the block after the one it gives out. -/
def itemsFrom (E : Env G) [DecidableEq G] (b : Block G) : List Rand → Outcome (List (Block G))
  | [] => .ok []
  | r :: rs => do
    let nb ← nextBlock E (some b) 1 r
    let l ← itemsFrom E nb rs
    pure (b :: l)

/-- `block_stream(start)` and as many calls of `next()` as `rs` has members, `chain_generation.rs:48-99`; `r0` is what is drawn for
the first block if there is none to start from. -/
def blockStream (E : Env G) [DecidableEq G] (start : Option (Block G)) (r0 : Rand) (rs : List Rand) : Outcome (List (Block G)) := do
  let b ← (match start with
    | some b => .ok b
    | none => nextBlock E none 1 r0)
  itemsFrom E b rs

/-- `TryInto<PoPowHeader> for ErgoFullBlock`, `ergo-chain-generation/src/lib.rs:40-54`. -/
def Block.toPoPow (H : HashFn) (b : Block G) : Outcome (PoPowHeader G) := do
  let p ← interlinkProof H b.extension
  let l ← unpackInterlinks b.extension
  pure { header := b.header, interlinks := l, proof := p }

/-- Converting every block, `ergo-chain-generation/src/lib.rs:40-54`. -/
def toPoPows (H : HashFn) : List (Block G) → Outcome (List (PoPowHeader G))
  | [] => .ok []
  | b :: l => do
    let p ← b.toPoPow H
    let ps ← toPoPows H l
    pure (p :: ps)

end Verif.ChainGen
