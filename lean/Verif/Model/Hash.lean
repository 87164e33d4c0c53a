import Verif.Model.Base

/-!
# Hash functions

`blake2b256_hash` (`sigma-util/src/hash.rs`, `blake2` crate) is not modelled: every model function that hashes takes the
hash function as a parameter, of which only the output length is known.  Theorems that need collision resistance are
stated as "… or here are two distinct inputs, taken from the data hashed in this very situation, with equal hashes".
-/

namespace Verif

/-- A function with 32 byte output (`[u8; 32]` / `Digest32`), `blake2b256_hash`, `sigma-util/src/hash.rs:4-15`. -/
structure HashFn where
  run : Bytes → Bytes
  len : ∀ x, (run x).length = 32

/-- A hash function is applied as `blake2b256_hash(bytes)`, `sigma-util/src/hash.rs:4-15`. -/
instance : CoeFun HashFn (fun _ => Bytes → Bytes) := ⟨HashFn.run⟩

/-- A toy hash used in examples only: the input cut or padded to 32 bytes, not in the code; for `sigma-util/src/hash.rs:4-15`. -/
def toyHash : HashFn where
  run x := (x ++ List.replicate 32 0#8).take 32
  len x := by simp

/-- Another toy hash for examples: a 32 byte string that depends on all input bytes (polynomial checksum), not in the code; for
`sigma-util/src/hash.rs:4-15`. -/
def sumHash : HashFn where
  run x := let n := x.foldl (fun a b => (a * 257 + b.toNat + 1) % (2 ^ 256 - 189)) 7
    (List.range 32).map fun i => BitVec.ofNat 8 (n / 256 ^ i)
  len x := by simp

/-- `xs` and `ys` contain two distinct inputs with the same hash, not in the code; of `sigma-util/src/hash.rs:4-15`. -/
def Collision (H : HashFn) (xs ys : List Bytes) : Prop := ∃ x ∈ xs, ∃ y ∈ ys, x ≠ y ∧ H x = H y

end Verif
