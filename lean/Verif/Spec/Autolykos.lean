import Verif.Model.Autolykos

/-!
# Specification of table indexes and compact difficulties
-/

namespace Verif.Spec

/-- The four consecutive bytes of a 32-byte seed that start at `i`, read around the end of the seed, as a number. -/
def window (seed : Bytes) (i : Nat) : Nat :=
  let at' (j : Nat) : Nat := ((seed[(i + j) % 32]?).getD 0).toNat
  ((at' 0 * 256 + at' 1) * 256 + at' 2) * 256 + at' 3

/-- What a compact number stands for: 8 bits of size, a sign bit and 23 bits of mantissa `m`; the value is `m * 256^(size - 3)`,
cut to an integer. -/
def compactValue (nBits : Nat) : Int :=
  let size := nBits / 2 ^ 24 % 256
  let m := nBits % 2 ^ 23
  let a : Int := (m * 256 ^ size / 256 ^ 3 : Nat)
  if nBits / 2 ^ 23 % 2 = 1 then -a else a

end Verif.Spec
