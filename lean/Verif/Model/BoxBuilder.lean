import Verif.Model.Box
import Verif.Model.DerivationPath

/-!
# The box builder

Source: `ergo-lib/src/chain/ergo_box/box_builder.rs`.  ErgoTrees are values of a parameter type `T`, as in `Model/Box.lean`.
-/

namespace Verif

/-- `MintingToken`, `box_builder.rs:63-70`.  Strings are their UTF-8 bytes. -/
structure Minting where
  token : Token
  name : Bytes
  desc : Bytes
  decimals : Nat

/-- `ErgoBoxCandidateBuilder`, `box_builder.rs:72-82`. -/
structure BoxBuilder (G B T : Type) where
  perByte : BitVec 32
  value : Nat
  tree : T
  tokens : List Token
  regs : FMap NmId (Constant G B)
  height : BitVec 32
  minting : Option Minting

/-- Product of two `i64` (`*`), `box_builder.rs:132, 256`: exact within the range, else a panic in debug builds and wrapped in
release builds. -/
def mulI64 (m : Mode) (a b : Int) : Outcome Int :=
  if -(2 ^ 63) ≤ a * b ∧ a * b < 2 ^ 63 then .ok (a * b)
  else match m with
    | .debug => .panic
    | .release => .ok ((BitVec.ofInt 64 (a * b)).toInt)

/-- `box_size_bytes as i64 * min_value_per_byte as i64` as a box value, `box_builder.rs:130-132, 254-258`: the `unwrap` panics below
`BoxValue::MIN_RAW`.  The length of a `Vec` fits in an `i64`. -/
def minValueFor (m : Mode) (size : Nat) (perByte : BitVec 32) : Outcome Nat := do
  let p ← mulI64 m size perByte.toNat
  match BoxValue.tryFromI64 p with
  | some v => pure v
  | none => Outcome.panic

/-- `usize::to_string().as_bytes()`, `box_builder.rs:223-230`. -/
def decimalBytes (n : Nat) : Bytes := (decimal n).map fun c => BitVec.ofNat 8 c.toNat

/-- `From<Vec<u8>> for Constant`, `ergotree-ir/src/mir/constant.rs:454-461`, used at `box_builder.rs:215-230`. -/
def bytesConst {G B : Type} (b : Bytes) : Constant G B := { tpe := .coll .byte, v := .collByte b }

namespace BoxBuilder
variable {G B T : Type}

/-- `ErgoBoxCandidateBuilder::new`, `box_builder.rs:88-98`. -/
def new (value : Nat) (tree : T) (height : BitVec 32) : BoxBuilder G B T :=
  { perByte := BitVec.ofNat 32 BoxValue.minValuePerBoxByte, value := value, tree := tree, tokens := [], regs := [],
    height := height, minting := none }

/-- `set_min_box_value_per_byte`, `box_builder.rs:101-103`. -/
def setPerByte (b : BoxBuilder G B T) (p : BitVec 32) : BoxBuilder G B T := { b with perByte := p }

/-- `set_value`, `box_builder.rs:111-113`. -/
def setValue (b : BoxBuilder G B T) (v : Nat) : BoxBuilder G B T := { b with value := v }

/-- `set_register_value`, `box_builder.rs:136-138`. -/
def setReg (b : BoxBuilder G B T) (r : NmId) (c : Constant G B) : BoxBuilder G B T := { b with regs := b.regs.insert r c }

/-- `register_value`, `box_builder.rs:141-143`. -/
def regValue (b : BoxBuilder G B T) (r : NmId) : Option (Constant G B) := b.regs.get r

/-- `delete_register_value`, `box_builder.rs:146-148`. -/
def delReg (b : BoxBuilder G B T) (r : NmId) : BoxBuilder G B T := { b with regs := b.regs.erase r }

/-- `mint_token`, `box_builder.rs:155-168`. -/
def mint (b : BoxBuilder G B T) (t : Minting) : BoxBuilder G B T := { b with minting := some t }

/-- `add_token`, `box_builder.rs:171-173`. -/
def addToken (b : BoxBuilder G B T) (t : Token) : BoxBuilder G B T := { b with tokens := b.tokens ++ [t] }

/-- Tokens and registers after the minting block of `build_box_unchecked`, `box_builder.rs:178-232`. -/
def withMinted (b : BoxBuilder G B T) : Outcome (List Token × FMap NmId (Constant G B)) :=
  match b.minting with
  | none => .ok (b.tokens, b.regs)
  | some t =>
    if !b.tokens.isEmpty then .err
    else if (b.regs.get .R4).isSome then .err
    else if (b.regs.get .R5).isSome then .err
    else if (b.regs.get .R6).isSome then .err
    else .ok (b.tokens ++ [t.token],
      ((b.regs.insert .R4 (bytesConst t.name)).insert .R5 (bytesConst t.desc)).insert .R6 (bytesConst (decimalBytes t.decimals)))

/-- `build_box_unchecked`, `box_builder.rs:177-249`. -/
def buildUnchecked (b : BoxBuilder G B T) : Outcome (BoxCand G B T) := do
  let (toks, regs) ← b.withMinted
  match Regs.new regs with
  | none => Outcome.err
  | some rs =>
    match boxTokensOf toks with
    | none => Outcome.err
    | some ts => pure { value := b.value, tree := b.tree, tokens := ts, regs := rs, height := b.height }

variable [DecidableEq G]

/-- `calc_box_size_bytes`, `box_builder.rs:121-124`. -/
def calcSize (E : Sers G B T) (b : BoxBuilder G B T) : Outcome Nat := do
  let c ← b.buildUnchecked
  let bytes ← c.ser E
  pure bytes.length

/-- `calc_min_box_value`, `box_builder.rs:127-133`. -/
def calcMin (m : Mode) (E : Sers G B T) (b : BoxBuilder G B T) : Outcome Nat := do
  let n ← b.calcSize E
  minValueFor m n b.perByte

/-- `build_box` and `build`, `box_builder.rs:253-276`. -/
def build (m : Mode) (E : Sers G B T) (b : BoxBuilder G B T) : Outcome (BoxCand G B T) := do
  let c ← b.buildUnchecked
  let bytes ← c.ser E
  let v ← minValueFor m bytes.length b.perByte
  if b.value ≥ v then pure c else Outcome.err

end BoxBuilder
end Verif
