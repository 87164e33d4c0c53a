import Verif.Model.Gf
import Mathlib.Algebra.Polynomial.Div
import Mathlib.Data.ZMod.Basic
import Mathlib.Algebra.BigOperators.Fin

/-! Specification of GF(2^192): 192-bit words read as polynomials over the two-element field. -/

namespace Verif.Spec
open Polynomial

/-- Bit `i` of a 192-bit element, least significant word first. -/
def gfBit (a : Gf.Gf) (i : Nat) : Bool :=
  if i < 64 then a.w0.getLsbD i else if i < 128 then a.w1.getLsbD (i - 64) else a.w2.getLsbD (i - 128)

/-- The polynomial whose coefficients are the bits. -/
noncomputable def gfPoly (a : Gf.Gf) : (ZMod 2)[X] :=
  ∑ i ∈ Finset.range 192, if gfBit a i then X ^ i else 0

/-- The reduction polynomial. -/
noncomputable def gfModulus : (ZMod 2)[X] := X ^ 192 + X ^ 7 + X ^ 2 + X + 1

/-- A byte as a field element. -/
def gfByte (b : Byte) : Gf.Gf := ⟨b.setWidth 64, 0#64, 0#64⟩

/-- The value at `x` of the polynomial with the given coefficients, lowest first. -/
def gfEval (cs : List Gf.Gf) (x : Gf.Gf) : Gf.Gf :=
  cs.foldr (fun c acc => Gf.add c (Gf.multiply acc x)) Gf.zero

end Verif.Spec
