import Verif.Spec.Script
import Verif.Spec.Arith
import Verif.Model.Expr

/-!
# ErgoScript: what a program should be compiled to, and what it is worth

Nothing here refers to the passes of the compiler.
-/

namespace Verif
namespace ScriptSpec
open Script (TokKind BOp)
open Spec (NumTy)
variable {G B : Type}

/-- The value of one digit. -/
def digitVal (c : Char) : Nat := c.toNat - '0'.toNat

/-- The number that a row of digits stands for. -/
def decimal : List Char → Nat
  | [] => 0
  | c :: s => digitVal c * 10 ^ s.length + decimal s

/-- The digits of a number that ends with `L`. -/
def beforeL (s : List Char) : List Char := s.dropLast

/-- The name of the height. -/
def HEIGHT : List Char := "HEIGHT".toList

/-- What a text of sums, literals and `HEIGHT` is worth at a height: type and value; `none` when operands have different types or a
number does not fit its type. -/
def Ex.worth (height : Int) : Ex → Option (NumTy × Int)
  | .int s => if decimal s < 2 ^ 31 then some (.int, decimal s) else none
  | .long s => if decimal (beforeL s) < 2 ^ 63 then some (.long, decimal (beforeL s)) else none
  | .ident s => if s = HEIGHT then some (.int, height) else none
  | .bin .plus l r =>
    match l.worth height, r.worth height with
    | some (t, a), some (u, b) => if t = u ∧ -2 ^ (t.bits - 1) ≤ a + b ∧ a + b < 2 ^ (t.bits - 1) then some (t, a + b) else none
    | _, _ => none
  | _ => none

/-- The expression of `ergotree-ir` for sums, literals and `HEIGHT`. -/
def Ex.target : Ex → Option (Expr G B)
  | .int s => if decimal s < 2 ^ 31 then some (.const ⟨.int, .int (BitVec.ofNat 32 (decimal s))⟩) else none
  | .long s =>
    if decimal (beforeL s) < 2 ^ 63 then some (.const ⟨.long, .long (BitVec.ofNat 64 (decimal (beforeL s)))⟩) else none
  | .ident s => if s = HEIGHT then some (.op .height []) else none
  | .bin .plus l r => do
    let a ← l.target
    let b ← r.target
    pure (.bin .plus a b)
  | _ => none

/-- Literals of the right size, names and operators only: no minus sign, no parentheses. -/
def Ex.Plain : Ex → Prop
  | .int s => decimal s < 2 ^ 31
  | .long s => decimal (beforeL s) < 2 ^ 63
  | .ident _ => True
  | .bin _ l r => l.Plain ∧ r.Plain
  | .neg _ | .paren _ => False

/-- Every operator is `+`. -/
def Ex.Sums : Ex → Prop
  | .bin op l r => op = .plus ∧ l.Sums ∧ r.Sums
  | _ => True

/-- No names. -/
def Ex.Nameless : Ex → Prop
  | .ident _ => False
  | .bin _ l r => l.Nameless ∧ r.Nameless
  | .neg x | .paren x => x.Nameless
  | _ => True

/-- The expression is `HEIGHT` or has no names. -/
def Ex.Near (x : Ex) : Prop := x = .ident HEIGHT ∨ x.Nameless

/-- `HEIGHT` is the only name, and it is the expression itself or an operand of its outermost operator. -/
def Ex.Named : Ex → Prop
  | .bin _ l r => l.Near ∧ r.Near
  | x => x.Near

/-- The type of the first number or name of an expression. -/
def Ex.headTy : Ex → NumTy
  | .long _ => .long
  | .bin _ l _ => l.headTy
  | .neg x | .paren x => x.headTy
  | _ => .int

/-- The operands of the outermost operator begin with numbers of the same type. -/
def Ex.Even : Ex → Prop
  | .bin _ l r => l.headTy = r.headTy
  | _ => True

/-- The statements that reach the expression: neither definitions nor expressions that begin with a parenthesis or a sign
(unless an operator follows). -/
def St.seen : St → Option Ex
  | .expr (.neg _) | .expr (.paren _) | .val _ _ => none
  | .expr x => some x

end ScriptSpec
end Verif
