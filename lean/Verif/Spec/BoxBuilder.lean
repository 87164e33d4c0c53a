import Verif.Model.BoxBuilder
import Verif.Spec.DerivationPath

/-!
# What was asked of a box builder

Written from the documentation of the calls and EIP-4, independently of the builder's state: for every part of the box the last call
about that part decides, tokens are kept in the order they were added.
-/

namespace Verif.Spec
open Verif

/-- One call on a builder. -/
inductive BoxCall (G B : Type) where
  | perByte (p : BitVec 32)
  | value (v : Nat)
  | setReg (r : NmId) (c : Constant G B)
  | delReg (r : NmId)
  | mint (t : Minting)
  | addToken (t : Token)

variable {G B T : Type}

/-- What a call does to the builder. -/
def BoxCall.on (b : BoxBuilder G B T) : BoxCall G B → BoxBuilder G B T
  | .perByte p => b.setPerByte p
  | .value v => b.setValue v
  | .setReg r c => b.setReg r c
  | .delReg r => b.delReg r
  | .mint t => b.mint t
  | .addToken t => b.addToken t

/-- A new builder after a sequence of calls. -/
def called (value : Nat) (tree : T) (height : BitVec 32) (l : List (BoxCall G B)) : BoxBuilder G B T :=
  l.foldl BoxCall.on (BoxBuilder.new value tree height)

/-- The last call for which `f` has an answer gives the answer. -/
def lastSome {α : Type} (f : BoxCall G B → Option α) (l : List (BoxCall G B)) : Option α := l.reverse.findSome? f

/-- The minimal value per byte asked for; 360 nanoErgs if there was no call. -/
def askedPerByte (l : List (BoxCall G B)) : Nat :=
  (lastSome (fun | .perByte p => some p.toNat | _ => none) l).getD 360

/-- The value asked for. -/
def askedValue (v : Nat) (l : List (BoxCall G B)) : Nat := (lastSome (fun | .value v => some v | _ => none) l).getD v

/-- The tokens added, in order. -/
def askedTokens (l : List (BoxCall G B)) : List Token := l.filterMap fun | .addToken t => some t | _ => none

/-- The token to be minted. -/
def askedMint (l : List (BoxCall G B)) : Option Minting := lastSome (fun | .mint t => some t | _ => none) l

/-- The register value asked for; deleting it asks for none. -/
def askedReg (l : List (BoxCall G B)) (r : NmId) : Option (Constant G B) :=
  (lastSome (fun
    | .setReg r' c => if r' = r then some (some c) else none
    | .delReg r' => if r' = r then some none else none
    | _ => none) l).getD none

/-- The tokens of the box: those added, and the minted one. -/
def wantedTokens (l : List (BoxCall G B)) : List Token := askedTokens l ++ (askedMint l).toList.map Minting.token

/-- A constant of type `Coll[Byte]`. -/
def byteColl (b : Bytes) : Constant G B := { tpe := .coll .byte, v := .collByte b }

/-- The registers of the box: EIP-4 puts name, description and number of decimals of a minted token into R4, R5, R6. -/
def wantedReg (l : List (BoxCall G B)) (r : NmId) : Option (Constant G B) :=
  match askedMint l, r with
  | some t, .R4 => some (byteColl t.name)
  | some t, .R5 => some (byteColl t.desc)
  | some t, .R6 => some (byteColl (decimalBytes t.decimals))
  | _, r => askedReg l r

/-- What can be asked for: registers without a gap, a minted token alone and with R4, R5, R6 unused, at most 122 tokens. -/
structure Allowed (l : List (BoxCall G B)) : Prop where
  noGap : ∀ r r' : NmId, r.toNat < r'.toNat → (wantedReg l r').isSome → (wantedReg l r).isSome
  mint : (askedMint l).isSome → askedTokens l = [] ∧ askedReg l .R4 = none ∧ askedReg l .R5 = none ∧ askedReg l .R6 = none
  tokens : (wantedTokens l).length ≤ 122

/-- The box holds what was asked for and nothing else. -/
structure IsAsked (value : Nat) (tree : T) (height : BitVec 32) (l : List (BoxCall G B)) (c : BoxCand G B T) : Prop where
  value : c.value = askedValue value l
  tree : c.tree = tree
  height : c.height = height
  tokens : c.tokens.getD [] = wantedTokens l
  noEmpty : c.tokens ≠ some []
  regs : ∀ r : NmId, c.regs.toMap.get r = (wantedReg l r).map RegVal.parsed
  regsLen : c.regs.length ≤ 6

/-- Set the value to the calculated minimum, `n` times. -/
def raise [DecidableEq G] (m : Mode) (E : Sers G B T) : Nat → BoxBuilder G B T → Outcome (BoxBuilder G B T)
  | 0, b => .ok b
  | n + 1, b => do
    let v ← b.calcMin m E
    raise m E n (b.setValue v)

end Verif.Spec
