import Verif.Model.Base

/-!
# VLQ and ZigZag integer coding

Source: `sigma-ser/src/vlq_encode.rs`, `sigma-ser/src/zig_zag_encode.rs`, `sigma-ser/src/scorex_serialize.rs`.
Writers are total functions to the bytes written (an `io::Write` failure of the sink is not modelled).
-/

namespace Verif

/-- `put_u8`, `sigma-ser/src/vlq_encode.rs:41-43`. -/
def putU8 (v : Byte) : Bytes := [v]

/-- `put_i8`, `sigma-ser/src/vlq_encode.rs:36-38` (`v as u8` keeps the bits). -/
def putI8 (v : BitVec 8) : Bytes := putU8 v

/-- `get_i8`, `sigma-ser/src/vlq_encode.rs:164-166`. -/
def getI8 : Parser (BitVec 8) := getU8

theorem vlq_shift_lt (v : BitVec 64) (h : ¬ (v &&& ~~~0x7F#64) = 0#64) : (v >>> 7).toNat < v.toNat := by
  have hv : v.toNat ≠ 0 := by
    intro h0
    apply h
    have : v = 0#64 := BitVec.eq_of_toNat_eq (by simpa using h0)
    subst this; decide
  simp only [BitVec.toNat_ushiftRight, Nat.shiftRight_eq_div_pow]
  exact Nat.div_lt_self (Nat.pos_of_ne_zero hv) (by decide)

/-- `put_u64`, `sigma-ser/src/vlq_encode.rs:89-107`: the loop over `value`, emitting seven bits per step.
Simplification: the Rust loop writes into a fixed 10 byte buffer (an 11th byte would panic); here the bytes are
emitted directly and `putU64_length_le` proves that at most 10 are emitted. -/
def putU64 (value : BitVec 64) : Bytes :=
  if _h : (value &&& ~~~0x7F#64) = 0#64 then
    [value.setWidth 8]
  else
    (((value.setWidth 32) &&& 0x7F#32) ||| 0x80#32).setWidth 8 :: putU64 (value >>> 7)
termination_by value.toNat
decreasing_by exact vlq_shift_lt value _h

/-- The `while shift < 64` loop of `get_u64`, `sigma-ser/src/vlq_encode.rs:213-221`. -/
def getU64Loop : Nat → BitVec 64 → Bytes → Option (BitVec 64 × Bytes)
  | _, _, [] => none
  | shift, result, b :: s' =>
    if shift < 64 then
      let result' := result ||| (((b &&& 0x7F#8).setWidth 64) <<< shift)
      if (b &&& 0x80#8) = 0#8 then some (result', s')
      else getU64Loop (shift + 7) result' s'
    else none

/-- `get_u64`, `sigma-ser/src/vlq_encode.rs:208-222`. -/
def getU64 : Parser (BitVec 64) := fun s => getU64Loop 0 0#64 s

/-- `put_u32`, `sigma-ser/src/vlq_encode.rs:73-75`. -/
def putU32 (v : BitVec 32) : Bytes := putU64 (v.setWidth 64)

/-- `get_u32`, `sigma-ser/src/vlq_encode.rs:196-200` (range check by `u32::try_from`). -/
def getU32 : Parser (BitVec 32) := do
  let v ← getU64
  if v.toNat < 2 ^ 32 then pure (v.setWidth 32) else Parser.fail

/-- `put_u16`, `sigma-ser/src/vlq_encode.rs:51-53`. -/
def putU16 (v : BitVec 16) : Bytes := putU64 (v.setWidth 64)

/-- `get_u16`, `sigma-ser/src/vlq_encode.rs:184-188`. -/
def getU16 : Parser (BitVec 16) := do
  let v ← getU64
  if v.toNat < 2 ^ 16 then pure (v.setWidth 16) else Parser.fail

/-- `put_usize_as_u16_unwrapped`, `sigma-ser/src/vlq_encode.rs:56-59`: panics (`none`) when out of range. -/
def putUsizeAsU16 (v : Nat) : Option Bytes :=
  if v < 2 ^ 16 then some (putU16 (BitVec.ofNat 16 v)) else none

/-- `put_usize_as_u32_unwrapped`, `sigma-ser/src/vlq_encode.rs:62-65`: panics (`none`) when out of range. -/
def putUsizeAsU32 (v : Nat) : Option Bytes :=
  if v < 2 ^ 32 then some (putU32 (BitVec.ofNat 32 v)) else none

/-- `encode_i32`, `sigma-ser/src/zig_zag_encode.rs:12-16`: the `i32` result is sign-extended by `as u64`. -/
def zigzagEncodeI32 (v : BitVec 32) : BitVec 64 := ((v <<< 1) ^^^ (v.sshiftRight 31)).signExtend 64

/-- `decode_u32`, `sigma-ser/src/zig_zag_encode.rs:20-23`. -/
def zigzagDecodeU32 (v : BitVec 64) : BitVec 32 :=
  ((v.setWidth 32) >>> 1) ^^^ (-((v.setWidth 32) &&& 1#32))

/-- `encode_i64`, `sigma-ser/src/zig_zag_encode.rs:30-33`. -/
def zigzagEncodeI64 (v : BitVec 64) : BitVec 64 := (v <<< 1) ^^^ (v.sshiftRight 63)

/-- `decode_u64`, `sigma-ser/src/zig_zag_encode.rs:37-40`. -/
def zigzagDecodeU64 (v : BitVec 64) : BitVec 64 := (v >>> 1) ^^^ (-(v &&& 1#64))

/-- `put_i16`, `sigma-ser/src/vlq_encode.rs:46-48`: the 64-bit code is truncated to `u32` before writing. -/
def putI16 (v : BitVec 16) : Bytes := putU32 ((zigzagEncodeI32 (v.signExtend 32)).setWidth 32)

/-- `get_i16`, `sigma-ser/src/vlq_encode.rs:176-181` (`i16::try_from` on the decoded `i32`). -/
def getI16 : Parser (BitVec 16) := do
  let v ← getU64
  let vd := zigzagDecodeU32 v
  if -(2 ^ 15) ≤ vd.toInt ∧ vd.toInt < 2 ^ 15 then pure (vd.setWidth 16) else Parser.fail

/-- `put_i32`, `sigma-ser/src/vlq_encode.rs:68-70`. -/
def putI32 (v : BitVec 32) : Bytes := putU64 (zigzagEncodeI32 v)

/-- `get_i32`, `sigma-ser/src/vlq_encode.rs:191-193` (no range check: the upper 32 bits are ignored). -/
def getI32 : Parser (BitVec 32) := do
  let v ← getU64
  pure (zigzagDecodeU32 v)

/-- `put_i64`, `sigma-ser/src/vlq_encode.rs:84-86`. -/
def putI64 (v : BitVec 64) : Bytes := putU64 (zigzagEncodeI64 v)

/-- `get_i64`, `sigma-ser/src/vlq_encode.rs:203-205`. -/
def getI64 : Parser (BitVec 64) := do
  let v ← getU64
  pure (zigzagDecodeU64 v)

/-- `u32::to_be_bytes`, `sigma-ser/src/vlq_encode.rs:78`. -/
def u32ToBe (v : BitVec 32) : Bytes :=
  [(v >>> 24).setWidth 8, (v >>> 16).setWidth 8, (v >>> 8).setWidth 8, v.setWidth 8]

/-- `u32::from_be_bytes` / `read_u32::<BigEndian>`, `ergo-merkle-tree/src/batchmerkleproof.rs:155-160`,
`ergo-chain-types/src/header.rs:116`. -/
def u32OfBe (a b c d : Byte) : BitVec 32 :=
  (a.setWidth 32 <<< 24) ||| (b.setWidth 32 <<< 16) ||| (c.setWidth 32 <<< 8) ||| d.setWidth 32

/-- `put_u32_be_bytes`, `sigma-ser/src/vlq_encode.rs:78-81`. -/
def putU32Be (v : BitVec 32) : Bytes := u32ToBe v

/-- Reading four bytes as a big-endian `u32`
(`ergo-chain-types/src/header.rs:109-118`, `ergo-merkle-tree/src/batchmerkleproof.rs`). -/
def getU32Be : Parser (BitVec 32) := do
  let a ← getU8
  let b ← getU8
  let c ← getU8
  let d ← getU8
  pure (u32OfBe a b c d)

/-- `put_i16_be_bytes`, `sigma-ser/src/vlq_encode.rs:122-124`. -/
def putI16Be (v : BitVec 16) : Bytes := [(v >>> 8).setWidth 8, v.setWidth 8]

/-- One byte of a `BitVec<u8, Lsb0>`: bit `i` of the byte is the `i`-th pushed boolean, missing ones are `false`,
`sigma-ser/src/vlq_encode.rs:110-119`. -/
def packByte (bs : List Bool) : Byte :=
  BitVec.ofNat 8 ((List.range 8).foldl (fun acc i => acc + if bs.getD i false then 2 ^ i else 0) 0)

/-- `put_bits`, `sigma-ser/src/vlq_encode.rs:110-119`: chunks of eight bits, least significant bit first.
Simplification: `BitVec<u8, Lsb0>` of the `bitvec` crate is replaced by its documented layout. -/
def putBits : List Bool → Bytes
  | [] => []
  | b :: bs => packByte ((b :: bs).take 8) :: putBits ((b :: bs).drop 8)
termination_by l => l.length
decreasing_by simp; omega

/-- The eight bits of a byte, least significant first, `sigma-ser/src/vlq_encode.rs:225-233`. -/
def unpackByte (b : Byte) : List Bool := (List.range 8).map fun i => b.getLsbD i

/-- `get_bits`, `sigma-ser/src/vlq_encode.rs:225-233`. -/
def getBits (size : Nat) : Parser (List Bool) := do
  let buf ← readExact ((size + 7) / 8)
  pure ((buf.flatMap unpackByte).take size)

/-- `put_short_string`, `sigma-ser/src/vlq_encode.rs:127-137` (on the UTF-8 bytes of the string);
`none` is the returned `Err`. -/
def putShortString (s : Bytes) : Option Bytes :=
  if s.length > 255 then none else some (putU8 (BitVec.ofNat 8 s.length) ++ s)

/-- `get_short_string`, `sigma-ser/src/vlq_encode.rs:236-242`; `validUtf8` stands for `String::from_utf8`. -/
def getShortString (validUtf8 : Bytes → Bool) : Parser Bytes := do
  let n ← getU8
  let bytes ← readExact n.toNat
  if validUtf8 bytes then pure bytes else Parser.fail

/-- `put_option`, `sigma-ser/src/vlq_encode.rs:140-153`. -/
def putOption {α : Type} (put : α → Bytes) : Option α → Bytes
  | some a => putU8 1 ++ put a
  | none => putU8 0

/-- `get_option`, `sigma-ser/src/vlq_encode.rs:245-255`: any tag other than `1` and any failure of the inner read
yields `None`.  Simplification: after a swallowed inner failure the rest of the stream is taken to be the bytes
following the tag (in Rust it is wherever the inner read stopped). -/
def getOption {α : Type} (get : Parser α) : Parser (Option α) := fun s =>
  match s with
  | [] => some (none, [])
  | tag :: s' =>
    if tag = 1#8 then
      match get s' with
      | some (a, s'') => some (some a, s'')
      | none => some (none, s')
    else some (none, s')

/-- `impl ScorexSerializable for Vec<T>`, `sigma-ser/src/scorex_serialize.rs:119-124`; `len as u32` truncates. -/
def putVec {α : Type} (put : α → Bytes) (l : List α) : Bytes :=
  putU32 (BitVec.ofNat 32 l.length) ++ l.flatMap put

/-- `impl ScorexSerializable for Vec<T>`, `sigma-ser/src/scorex_serialize.rs:125-132`. -/
def getVec {α : Type} (get : Parser α) : Parser (List α) := do
  let n ← getU32
  replicateP n.toNat get

/-- `impl ScorexSerializable for Option<Box<T>>`, `sigma-ser/src/scorex_serialize.rs:160-168`. -/
def putOptBox {α : Type} (put : α → Bytes) : Option α → Bytes
  | some a => putU8 1 ++ put a
  | none => putU8 0

/-- `impl ScorexSerializable for Option<Box<T>>`, `sigma-ser/src/scorex_serialize.rs:170-177`: any nonzero tag is
`Some`. -/
def getOptBox {α : Type} (get : Parser α) : Parser (Option α) := do
  let tag ← getU8
  if tag ≠ 0#8 then do
    let a ← get
    pure (some a)
  else pure none

end Verif
