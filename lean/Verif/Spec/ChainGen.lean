import Mathlib.Algebra.Group.Defs
import Verif.Spec.Nipopow
import Verif.Spec.Header
import Verif.Spec.Merkle
import Verif.Model.ChainGen

/-!
# What is asked of generated chains
-/

namespace Verif.Spec
open Verif Verif.ChainGen Merkle
variable {G : Type}

/-- The level of a header as a number (0 if it has none). -/
def levelOf (W : Pow) (h : Header G) : Nat :=
  match W.maxLevel h with
  | .ok l => l.toInt.toNat
  | _ => 0

/-- No hit that meets its target has a negative level. -/
def LevelsNonneg (lvl : Int → Int → BitVec 32) : Prop := ∀ t d : Int, 0 ≤ d → d ≤ t → 0 ≤ (lvl t d).toInt

/-- The counters of the packed interlinks cannot overflow: either overflow is checked, or no block behind the first has a level
above 254; nor can the height. -/
def InRange (E : Env G) (n : Nat) (bs : List (Block G)) : Prop :=
  E.mode = .debug ∨ (n < 2 ^ 32 ∧ ∀ b ∈ bs, b.header.height ≠ 1 → levelOf E.pow b.header ≤ 254)

/-- The root of the Merkle tree over `ds`, or the hash of nothing if there are none. -/
def MerkleRoot (H : HashFn) (ds : List Bytes) (r : Bytes) : Prop := (ds = [] ∧ r = H []) ∨ ∃ depth, IsRoot H ds depth r

/-- `n` applications of the hash. -/
def hashTimes (H : HashFn) : Nat → Bytes → Bytes
  | 0, b => b
  | n + 1, b => hashTimes H n (H b)

/-- `y` is the hash of `input` to numbers below `q`: the first of the repeated hashes that is below the largest multiple of `q` which
32 bytes can hold, modulo `q`. -/
def NumericHash (H : HashFn) (q : Nat) (input : Bytes) (y : Nat) : Prop :=
  ∃ n, (∀ k, k < n → 2 ^ 256 / q * q ≤ beNat (hashTimes H (k + 1) input)) ∧
    beNat (hashTimes H (n + 1) input) < 2 ^ 256 / q * q ∧ y = beNat (hashTimes H (n + 1) input) % q

/-- The order of secp256k1. -/
def groupOrder : Nat := 0xFFFFFFFFFFFFFFFFFFFFFFFFFFFFFFFEBAAEDCE6AF48A03BBFD25E8CD0364141

/-- Autolykos version 1 (algorithm 2 of its paper): with `m` the hash of the header without its solution, the indexes drawn from
the hash of `m` and the nonce, one element for each index, and `f` their sum, `w^f = g^d · pk` and `0 ≤ d < q`. -/
def Autolykos1 [CommGroup G] [DecidableEq G] (H : HashFn) (pc : PointCodec G) (g : G) (h : Header G) : Prop :=
  ∃ (w : G) (d : Nat) (idx elems : List Nat), h.solution.onetimePk = some w ∧ h.solution.distance = some (d : Int) ∧ d < groupOrder ∧
    PowScheme.default.genIndexes (H (H h.serWithoutPow ++ h.solution.nonce)) (2 ^ 26) = .ok idx ∧ idx.length = 32 ∧
    List.Forall₂ (fun i e => NumericHash H groupOrder
      (Verif.natBe 4 i ++ PowScheme.calcBigM ++ putPoint pc h.solution.minerPk ++ H h.serWithoutPow ++ putPoint pc w) e) idx elems ∧
    w ^ elems.sum = g ^ d * h.solution.minerPk

end Verif.Spec
