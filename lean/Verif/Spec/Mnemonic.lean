import Verif.Model.Hash

/-!
# BIP-39, for C79

Reading a phrase as BIP-39 prescribes: look up the words, write their numbers with 11 bits each, take the last bit of every 33 as
checksum and compare it with the first bits of the hash of the rest.
-/

namespace Verif.Spec.Bip39

/-- The lowest `k` bits of a number, highest first. -/
def bits : Nat → Nat → List Bool
  | 0, _ => []
  | k + 1, n => n.testBit k :: bits k n

/-- The bits of a byte string. -/
def bytesBits (bs : Bytes) : List Bool := bs.flatMap fun b => bits 8 b.toNat

/-- The number with the given bits, highest first. -/
def number : List Bool → Nat
  | [] => 0
  | b :: l => b.toNat * 2 ^ l.length + number l

/-- The first `n` bytes of a list of bits. -/
def toBytes : Nat → List Bool → Bytes
  | 0, _ => []
  | n + 1, l => BitVec.ofNat 8 (number (l.take 8)) :: toBytes n (l.drop 8)

/-- The pieces of a text between separators. -/
def split (d : Nat) : List Nat → List (List Nat)
  | [] => [[]]
  | c :: s =>
    if c = d then [] :: split d s
    else match split d s with
      | [] => [[c]]
      | w :: ws => (c :: w) :: ws

/-- What separates the words of a phrase: an ideographic space in Japanese, a space in all other languages. -/
def separator (japanese : Bool) : Nat := if japanese then 0x3000 else 0x20

/-- The position of the first occurrence of a word. -/
def find (w : List Nat) : List (List Nat) → Option Nat
  | [] => none
  | v :: ws => if v = w then some 0 else (find w ws).map (· + 1)

/-- The positions of several words. -/
def findAll (list : List (List Nat)) : List (List Nat) → Option (List Nat)
  | [] => some []
  | w :: ws => (find w list).bind fun i => (findAll list ws).map (i :: ·)

/-- The entropy of a phrase over a word list; `none` if a word is unknown, the number of words is not 12, 15, 18, 21 or 24, or the
checksum is wrong. -/
def decode (sha : HashFn) (list : List (List Nat)) (sep : Nat) (phrase : List Nat) : Option Bytes :=
  (findAll list (split sep phrase)).bind fun ix =>
    if ix.length ∈ [12, 15, 18, 21, 24] then
      let bs := ix.flatMap (bits 11)
      let n := ix.length / 3 * 4
      let e := toBytes n bs
      if bs.drop (8 * n) = (bytesBits (sha e)).take (n / 4) then some e else none
    else none

end Verif.Spec.Bip39
