import Verif.Model.Header
import Verif.Model.Value

/-!
# Proof-of-work and difficulty

Source: `ergo-nipopow/src/autolykos_pow_scheme.rs`, `decode_compact_bits` and `max_level_of` of
`ergo-nipopow/src/nipopow_algos.rs`.  `BigInt` values are integers; `blake2b256_hash` is the parameter `H`.
-/

namespace Verif

/-- `AutolykosPowScheme`, `autolykos_pow_scheme.rs:21-27`.  The bounds of the two fields are hypotheses where needed. -/
structure PowScheme where
  k : Nat
  n : Nat
  deriving DecidableEq

/-- `Default for AutolykosPowScheme`, `autolykos_pow_scheme.rs:161-170`. -/
def PowScheme.default : PowScheme := { k := 32, n := 26 }

/-- `as_unsigned_byte_array`, `autolykos_pow_scheme.rs:173-190`. -/
def asUnsigned (length : Nat) (n : Int) : Outcome Bytes :=
  let bytes := toSignedBe n
  if bytes.length = length then .ok bytes
  else
    let start := if bytes[0]? = some 0 then 1 else 0
    let count := bytes.length - start
    if length < count then .err
    else .ok (List.replicate (length - count) 0 ++ bytes.drop start)

/-- `BigInt::modpow(1, N)` of a non-negative number: the remainder; a zero modulus panics, `ergo-nipopow/src/autolykos_pow_scheme.rs:104,
128`. -/
def modBig (a N : Nat) : Outcome Nat := if N = 0 then .panic else .ok (a % N)

namespace PowScheme

/-- One step of the fold of `calc_big_n`, `autolykos_pow_scheme.rs:155`. -/
def grow (acc : Nat) : Nat := acc / 100 * 105

/-- The fold of `calc_big_n`, `autolykos_pow_scheme.rs:155`. -/
def growTimes : Nat → Nat → Nat
  | 0, acc => acc
  | i + 1, acc => growTimes i (grow acc)

/-- `calc_big_n`, `autolykos_pow_scheme.rs:137-158`. -/
def calcBigN (P : PowScheme) (version : Byte) (height : BitVec 32) : Nat :=
  let base := 2 ^ P.n
  if version = 1 then base
  else
    let h := min 4198400 height.toNat
    if h < 600 * 1024 then base else growTimes ((h - 600 * 1024) / (50 * 1024) + 1) base

/-- `calc_big_m`, `autolykos_pow_scheme.rs:74-84`. -/
def calcBigM : Bytes := (List.range 1024).flatMap fun x => natBe 8 x

/-- The body of the loop of `gen_indexes`, `autolykos_pow_scheme.rs:124-132`: the first digit of a number without digits panics
(`to_u32_digits().1[0]` of 0); a number above 32 bits is cut to its low digit. -/
def genIndex (ext : Bytes) (N i : Nat) : Outcome Nat := do
  let r ← modBig (beNat ((ext.drop i).take 4)) N
  if r = 0 then .panic else .ok (r % 2 ^ 32)

/-- The loop of `gen_indexes`, `ergo-nipopow/src/autolykos_pow_scheme.rs:124-132`. -/
def genLoop (ext : Bytes) (N : Nat) : List Nat → Outcome (List Nat)
  | [] => .ok []
  | i :: l => do
    let x ← genIndex ext N i
    let xs ← genLoop ext N l
    pure (x :: xs)

/-- `gen_indexes`, `autolykos_pow_scheme.rs:120-134`. -/
def genIndexes (P : PowScheme) (seed : Bytes) (N : Nat) : Outcome (List Nat) :=
  genLoop (seed ++ seed.take 3) N (List.range P.k)

/-- `calc_seed_v2`, `autolykos_pow_scheme.rs:88-117`. -/
def calcSeed (H : HashFn) (N : Nat) (msg nonce hb : Bytes) : Outcome Bytes := do
  let r ← modBig (beNat ((H (msg ++ nonce)).drop 24)) N
  let i ← asUnsigned 4 r
  pure (H ((H (i ++ hb ++ calcBigM)).drop 1 ++ msg ++ nonce))

/-- The fold over the indexes in `pow_hit`, `autolykos_pow_scheme.rs:56-64`. -/
def sumHashes (H : HashFn) (hb : Bytes) (idx : List Nat) : Nat :=
  idx.foldl (fun acc i => acc + beNat ((H (natBe 4 i ++ hb ++ calcBigM)).drop 1)) 0

/-- `pow_hit`, `autolykos_pow_scheme.rs:31-71`; the `unwrap` of line 68 panics. -/
def powHit {G : Type} (H : HashFn) (P : PowScheme) (h : Header G) : Outcome Int :=
  if h.version = 1 then
    match h.solution.distance with
    | some d => .ok d
    | none => .err
  else do
    let msg := H h.serWithoutPow
    let nonce := h.solution.nonce
    let hb := natBe 4 h.height.toNat
    let N := P.calcBigN h.version h.height
    let seed ← calcSeed H N msg nonce hb
    let idx ← P.genIndexes seed N
    match asUnsigned 32 (sumHashes H hb idx) with
    | .ok a => .ok (beNat (H a))
    | _ => .panic

end PowScheme

/-- The first three bytes that `decode_compact_bits` stores, `nipopow_algos.rs:389-399`, with zeros behind them. -/
def compactBuf (nBits : BitVec 64) (size : Nat) : Bytes :=
  ([(nBits >>> 16).setWidth 8, (nBits >>> 8).setWidth 8, nBits.setWidth 8] ++ List.replicate (size - 3) 0).take size

/-- `decode_compact_bits`, `nipopow_algos.rs:383-410`. -/
def decodeCompact (nBits : BitVec 64) : Int :=
  let size := ((nBits >>> 24).setWidth 8 : Byte).toNat
  if size = 0 then 0
  else
    match compactBuf nBits size with
    | [] => 0
    | b :: l => if b &&& 0x80 = 0x80 then -signedOfBe ((b &&& 0x7F) :: l) else signedOfBe (b :: l)

/-- Order of the secp256k1 group, `k256::Secp256k1::ORDER` as used by `order()`, `nipopow_algos.rs:96`. -/
def curveOrder : Int := 0xFFFFFFFFFFFFFFFFFFFFFFFFFFFFFFFEBAAEDCE6AF48A03BBFD25E8CD0364141

/-- What the superblock level of a header is computed with: hash, scheme, and `lvl target hit`, which stands for
`(target.to_f64().log2() - hit.to_f64().log2()) as i32` (`nipopow_algos.rs:98-104`); floating point is not modelled. -/
structure Pow where
  H : HashFn
  P : PowScheme
  lvl : Int → Int → BitVec 32

/-- `max_level_of`, `nipopow_algos.rs:92-108`; dividing by a zero difficulty panics. -/
def Pow.maxLevel {G : Type} (W : Pow) (h : Header G) : Outcome (BitVec 32) :=
  if h.height = 1 then .ok 0x7FFFFFFF
  else if decodeCompact h.nBits = 0 then .panic
  else do
    let hit ← W.P.powHit W.H h
    pure (W.lvl (curveOrder.tdiv (decodeCompact h.nBits)) hit)

end Verif
