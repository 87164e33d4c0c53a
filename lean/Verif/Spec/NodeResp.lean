import Verif.Model.NodeResp
import Verif.Spec.DerivationPath

/-!
# What versions and reported addresses mean
-/

namespace Verif.Spec
open Verif

/-- A number in decimal, without leading zeros. -/
def Decimal (s : Text) (n : Nat) : Prop :=
  s ≠ [] ∧ (∀ c ∈ s, 48 ≤ c.toNat ∧ c.toNat ≤ 57) ∧ digitsValue s = n ∧ (s.head? = some '0' → s = ['0'])

/-- The text of the version `a.b.c`, perhaps with something behind a dash. -/
def VersionText (sa sb sc tail : Text) (a b c : Nat) (t : Text) : Prop :=
  Decimal sa a ∧ Decimal sb b ∧ Decimal sc c ∧ (tail = [] ∨ tail.head? = some '-') ∧ t = sa ++ '.' :: sb ++ '.' :: sc ++ tail

/-- Versions are ordered by their numbers. -/
def AtLeast40100 (a b c : Nat) : Prop := 4 < a ∨ a = 4 ∧ (0 < b ∨ b = 0 ∧ 100 ≤ c)

/-- The ways in which a node reports the address `a`: its text, or the text without the brackets around an IPv6 address; behind a
slash or not. -/
def Reports {U : Type} (A : AddrText U) (s : Text) (a : PeerAddr) : Prop :=
  ∃ t, (s = '/' :: t ∨ s = t ∧ t.head? ≠ some '/') ∧
    (A.read t = some a ∨
      A.read t = none ∧ ∃ host port, t = host ++ ':' :: port ∧ ':' ∈ host ∧ ':' ∉ port ∧ A.read ('[' :: host ++ ']' :: ':' :: port) = some a)

end Verif.Spec
