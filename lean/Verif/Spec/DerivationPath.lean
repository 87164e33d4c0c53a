import Verif.Model.DerivationPath

/-!
# What a component of a derivation path text means

Written from BIP-44's notation, independently of the parser: a component is a non-empty string of decimal digits, optionally
followed by a single quote (hardened); its number must fit in 31 bits.
-/

namespace Verif.Spec
open Verif

/-- Number written by a list of decimal digit characters, most significant first; `0` is code point 48. -/
def digitsValue (ds : List Char) : Nat := ds.foldl (fun a c => 10 * a + (c.toNat - 48)) 0

/-- The component text `s` denotes the index `i`. -/
def Denotes (s : List Char) (i : ChildIndex) : Prop :=
  ∃ ds : List Char, ds ≠ [] ∧ (∀ c ∈ ds, '0' ≤ c ∧ c ≤ '9') ∧ digitsValue ds < 2 ^ 31 ∧
    ((s = ds ∧ i = .normal (BitVec.ofNat 32 (digitsValue ds))) ∨
     (s = ds ++ ['\''] ∧ i = .hardened (BitVec.ofNat 32 (digitsValue ds))))

/-- An index in the range the constructors allow (bit 31 clear). -/
def ChildIndexInRange : ChildIndex → Prop
  | .hardened i => i.toNat < 2 ^ 31
  | .normal i => i.toNat < 2 ^ 31

instance (i : ChildIndex) : Decidable (ChildIndexInRange i) := by cases i <;> (unfold ChildIndexInRange; infer_instance)

end Verif.Spec
