import Verif.Model.Transaction
import Verif.Model.ErgoTree
import Verif.Model.Header

/-!
# The byte forms of the protocol

Written down field by field and code by code, without the writers of the model.  Left open are: the 33 bytes of a point
(`PointCodec`), and boxes and trees inside other things, which are parameters of the codecs.
-/

namespace Verif.Wire

/-! ## Numbers -/

/-- Base 128, least digit first, 128 added to all digits but the last, no leading zero digits. -/
def vlq (n : Nat) : Bytes :=
  if n < 128 then [BitVec.ofNat 8 n] else BitVec.ofNat 8 (128 + n % 128) :: vlq (n / 128)
termination_by n
decreasing_by omega

/-- Numbers with a sign: 0, -1, 1, -2, 2, … are 0, 1, 2, 3, 4, …. -/
def zigzag (i : Int) : Nat := if 0 ≤ i then (2 * i).toNat else (-2 * i - 1).toNat

/-- The same for 32 bits, where the codes of numbers of 31 bits and more are taken for negative numbers of 64 bits. -/
def zigzag32 (i : Int) : Nat := if zigzag i < 2 ^ 31 then zigzag i else 2 ^ 64 - 2 ^ 32 + zigzag i

/-- Base 256, greatest digit first. -/
def unsigned (b : Bytes) : Nat := b.foldl (fun a x => 256 * a + x.toNat) 0

/-- Two's complement. -/
def twos (b : Bytes) : Int := if 256 ^ b.length ≤ 2 * unsigned b then unsigned b - (256 ^ b.length : Nat) else unsigned b

/-- The shortest two's complement form. -/
def IsTwos (n : Int) (b : Bytes) : Prop := b ≠ [] ∧ twos b = n ∧ ∀ c, c ≠ [] → twos c = n → b.length ≤ c.length

/-- Eight booleans in a byte, the first one the lowest bit; unused bits are 0. -/
def IsBits (l : List Bool) (b : Bytes) : Prop :=
  b.length = (l.length + 7) / 8 ∧ ∀ i, i < 8 * b.length → ((b.getD (i / 8) 0).getLsbD (i % 8) = l.getD i false)

/-- One thing after the other. -/
def Each {α : Type} (P : α → Bytes → Prop) (l : List α) (b : Bytes) : Prop := ∃ bs, List.Forall₂ P l bs ∧ b = bs.flatten

/-! ## Types -/

/-- The types with codes 1 to 8. -/
def prim : SType → Option Nat
  | .bool => some 1
  | .byte => some 2
  | .short => some 3
  | .int => some 4
  | .long => some 5
  | .bigInt => some 6
  | .groupElement => some 7
  | .sigmaProp => some 8
  | _ => none

/-- The types that have a code of their own. -/
def single : SType → Option Nat
  | .any => some 97
  | .unit => some 98
  | .box => some 99
  | .avlTree => some 100
  | .context => some 101
  | .header => some 104
  | .preHeader => some 105
  | .global => some 106
  | t => prim t

/-- The one byte code of a collection or option of a type with code 1 to 8 (`base`), or of a collection of one (`base + 12`). -/
def packed (base : Nat) : SType → Option Nat
  | .coll e => (prim e).map (base + 12 + ·)
  | t => (prim t).map (base + ·)

mutual
/-- A type.  With `gap`, a pair of two `Short`s is written like a pair of different types, and not with its own code. -/
def TypeForm (gap : Bool) : SType → Bytes → Prop
  | .coll e, b =>
    match packed 12 e with
    | some c => b = [BitVec.ofNat 8 c]
    | none => ∃ x, TypeForm gap e x ∧ b = 12 :: x
  | .option e, b =>
    match packed 36 e with
    | some c => b = [BitVec.ofNat 8 c]
    | none => ∃ x, TypeForm gap e x ∧ b = 36 :: x
  | .tuple l, b =>
    match l with
    | [t, u] =>
      match prim t, prim u with
      | some c, some d =>
        if c = d ∧ ¬ (gap = true ∧ c = 3) then b = [BitVec.ofNat 8 (84 + c)] else ∃ x, TypeForm gap u x ∧ b = BitVec.ofNat 8 (60 + c) :: x
      | some c, none => ∃ x, TypeForm gap u x ∧ b = BitVec.ofNat 8 (60 + c) :: x
      | none, some d => ∃ x, TypeForm gap t x ∧ b = BitVec.ofNat 8 (72 + d) :: x
      | none, none => ∃ x y, TypeForm gap t x ∧ TypeForm gap u y ∧ b = 60 :: (x ++ y)
    | [t, u, v] => ∃ x, TypesForm gap [t, u, v] x ∧ b = 72 :: x
    | [t, u, v, w] => ∃ x, TypesForm gap [t, u, v, w] x ∧ b = 84 :: x
    | l => ∃ x, TypesForm gap l x ∧ b = 96 :: BitVec.ofNat 8 l.length :: x
  | .typeVar n, b => b = 103 :: BitVec.ofNat 8 n.length :: n
  | .func _ _ _, _ => False
  | t, b => ∃ c, single t = some c ∧ b = [BitVec.ofNat 8 c]
/-- Types one after the other. -/
def TypesForm (gap : Bool) : List SType → Bytes → Prop
  | [], b => b = []
  | t :: l, b => ∃ x y, TypeForm gap t x ∧ TypesForm gap l y ∧ b = x ++ y
end

mutual
/-- No pair of two `Short`s inside. -/
def NoShorts : SType → Prop
  | .coll e => NoShorts e
  | .option e => NoShorts e
  | .tuple l => l ≠ [.short, .short] ∧ AllNoShorts l
  | _ => True
/-- List part of `NoShorts`. -/
def AllNoShorts : List SType → Prop
  | [] => True
  | t :: l => NoShorts t ∧ AllNoShorts l
end

section
variable {G B T : Type}

/-! ## Propositions and data -/

/-- A point: 33 bytes, all zero for the neutral element. -/
def point [DecidableEq G] (pc : PointCodec G) (g : G) : Bytes := if g = pc.one then List.replicate 33 0 else pc.sec1 g

mutual
/-- A proposition. -/
def sigma [DecidableEq G] (pc : PointCodec G) : SigmaBoolean G → Bytes
  | .trivial b => [if b then 0xD3 else 0xD2]
  | .dlog h => 0xCD :: point pc h
  | .dht g h u v => 0xCE :: (point pc g ++ point pc h ++ point pc u ++ point pc v)
  | .cand l => 0x96 :: (vlq (l.length % 2 ^ 16) ++ sigmas pc l)
  | .cor l => 0x97 :: (vlq (l.length % 2 ^ 16) ++ sigmas pc l)
  | .cth k l => 0x98 :: (vlq k.toNat ++ vlq (l.length % 2 ^ 16) ++ sigmas pc l)
/-- Propositions one after the other. -/
def sigmas [DecidableEq G] (pc : PointCodec G) : List (SigmaBoolean G) → Bytes
  | [] => []
  | p :: l => sigma pc p ++ sigmas pc l
end

/-- The digest, the flags, the length of keys and, if it is fixed, the length of values. -/
def avl (a : AvlTreeData) : Bytes :=
  a.digest ++ [a.flags] ++ vlq a.keyLength.toNat ++ (match a.valueLength with
    | none => [0]
    | some v => 1 :: vlq v.toNat)

mutual
/-- A value, without its type. -/
def DataForm [DecidableEq G] (E : Sers G B T) : Literal G B → Bytes → Prop
  | .unit, b => b = []
  | .bool x, b => b = [if x then 1 else 0]
  | .byte v, b => b = [v]
  | .short v, b => b = vlq (zigzag v.toInt)
  | .int v, b => b = vlq (zigzag32 v.toInt)
  | .long v, b => b = vlq (zigzag v.toInt)
  | .bigInt n, b => ∃ x, IsTwos n x ∧ b = vlq (x.length % 2 ^ 16) ++ x
  | .groupElement g, b => b = point E.pc g
  | .sigmaProp p, b => b = sigma E.pc p
  | .avlTree a, b => b = avl a
  | .box x, b => E.bc.ser x = .ok b
  | .collByte l, b => l.length < 2 ^ 16 ∧ b = vlq l.length ++ l
  | .coll e l, b => l.length < 2 ^ 16 ∧ ((e = .bool ∧ ∃ bs x, l = bs.map .bool ∧ IsBits bs x ∧ b = vlq l.length ++ x) ∨
      (e ≠ .bool ∧ ∃ x, AllData E l x ∧ b = vlq l.length ++ x))
  | .tup l, b => AllData E l b
  | .none, _ => False
  | .some _, _ => False
/-- Values one after the other. -/
def AllData [DecidableEq G] (E : Sers G B T) : List (Literal G B) → Bytes → Prop
  | [], b => b = []
  | v :: l, b => ∃ x y, DataForm E v x ∧ AllData E l y ∧ b = x ++ y
end

/-- A constant: its type, then its value.  `tf` is the form of types. -/
def ConstForm [DecidableEq G] (E : Sers G B T) (tf : SType → Bytes → Prop) (c : Constant G B) (b : Bytes) : Prop :=
  ∃ t d, tf c.tpe t ∧ DataForm E c.v d ∧ b = t ++ d

/-! ## Boxes -/

mutual
/-- What is in a register: a constant, or a tuple with its size. -/
def ItemForm [DecidableEq G] (E : Sers G B T) (tf : SType → Bytes → Prop) : RItem G B → Bytes → Prop
  | .const c, b => ConstForm E tf c b
  | .tuple l, b => ∃ x, ItemsForm E tf l x ∧ b = 0x86 :: BitVec.ofNat 8 l.length :: x
/-- List part of `ItemForm`. -/
def ItemsForm [DecidableEq G] (E : Sers G B T) (tf : SType → Bytes → Prop) : List (RItem G B) → Bytes → Prop
  | [], b => b = []
  | i :: l, b => ∃ x y, ItemForm E tf i x ∧ ItemsForm E tf l y ∧ b = x ++ y
end

/-- The value of a register; one that could not be read has no form. -/
def RegForm [DecidableEq G] (E : Sers G B T) (tf : SType → Bytes → Prop) : RegVal G B → Bytes → Prop
  | .parsed c, b => ConstForm E tf c b
  | .tupleExpr l, b => ItemForm E tf (.tuple l) b
  | .invalid _, _ => False

/-- A token: its id, or in a transaction the place of its id among the ids, and its amount. -/
def TokenForm : Option (List TokenId) → Token → Bytes → Prop
  | none, t, b => b = t.1 ++ vlq (t.2 % 2 ^ 64)
  | some ids, t, b => ∃ i, ids[i]? = some t.1 ∧ (∀ j, j < i → ids[j]? ≠ some t.1) ∧ b = vlq i ++ vlq (t.2 % 2 ^ 64)

/-- The contents of a box: value, script, height, number of tokens and tokens, number of registers and registers. -/
def CandForm [DecidableEq G] (E : Sers G B T) (tf : SType → Bytes → Prop) (ids : Option (List TokenId)) (c : BoxCand G B T)
    (b : Bytes) : Prop :=
  ∃ tree toks regs, E.tc.ser c.tree = .ok tree ∧ (c.tokens.getD []).length < 256 ∧ Each (TokenForm ids) (c.tokens.getD []) toks ∧
    Each (RegForm E tf) c.regs regs ∧
    b = vlq (c.value % 2 ^ 64) ++ tree ++ vlq c.height.toNat ++ [BitVec.ofNat 8 (c.tokens.getD []).length] ++ toks ++
      [BitVec.ofNat 8 c.regs.length] ++ regs

/-- A box: its contents, the id of its transaction and its place among the outputs. -/
def BoxForm [DecidableEq G] (E : Sers G B T) (tf : SType → Bytes → Prop) (x : EBox G B T) (b : Bytes) : Prop :=
  ∃ c, CandForm E tf none ⟨x.value, x.tree, x.tokens, x.regs, x.height⟩ c ∧ b = c ++ x.txId ++ vlq x.index.toNat

/-! ## Transactions -/

/-- Context variables: their number, then each with its key. -/
def ExtForm [DecidableEq G] (E : Sers G B T) (tf : SType → Bytes → Prop) (m : Extension G B) (b : Bytes) : Prop :=
  ∃ x, Each (fun p y => ∃ c, ConstForm E tf p.2 c ∧ y = p.1 :: c) m x ∧ b = BitVec.ofNat 8 m.length :: x

/-- The bytes of a proof. -/
def proofOf : ProofBytes → Bytes
  | .empty => []
  | .some p => p

/-- An input: the id of the box, the proof with its size, the context variables. -/
def InputForm [DecidableEq G] (E : Sers G B T) (tf : SType → Bytes → Prop) (i : Input G B) (b : Bytes) : Prop :=
  ∃ e, ExtForm E tf i.proof.extension e ∧
    b = i.boxId ++ vlq ((proofOf i.proof.proof).length % 2 ^ 16) ++ proofOf i.proof.proof ++ e

/-- A list without what has been there before. -/
def firsts {α : Type} [DecidableEq α] : List α → List α
  | [] => []
  | x :: l => x :: (firsts l).filter (· ≠ x)

/-- All tokens of the outputs, in order. -/
def tokenIds (cs : List (BoxCand G B T)) : List TokenId := cs.flatMap fun c => (c.tokens.getD []).map Prod.fst

/-- A transaction: inputs, data inputs, ids of tokens, outputs, each with their number. -/
def TxForm [DecidableEq G] (E : Sers G B T) (tf : SType → Bytes → Prop) (is : List (Input G B)) (ds : Option (List Bytes))
    (cs : List (BoxCand G B T)) (b : Bytes) : Prop :=
  is.length < 2 ^ 16 ∧ (ds.getD []).length < 2 ^ 16 ∧ (firsts (tokenIds cs)).length < 2 ^ 32 ∧ cs.length < 2 ^ 16 ∧
  ∃ i o, Each (InputForm E tf) is i ∧ Each (CandForm E tf (some (firsts (tokenIds cs)))) cs o ∧
    b = vlq is.length ++ i ++ vlq (ds.getD []).length ++ (ds.getD []).flatten ++ vlq (firsts (tokenIds cs)).length ++
      (firsts (tokenIds cs)).flatten ++ vlq cs.length ++ o

/-! ## Headers -/

/-- A 32 bit number, greatest digit first. -/
def four (n : Nat) : Bytes :=
  [BitVec.ofNat 8 (n / 2 ^ 24), BitVec.ofNat 8 (n / 2 ^ 16), BitVec.ofNat 8 (n / 2 ^ 8), BitVec.ofNat 8 n]

/-- A header without the solution of its puzzle. -/
def headerForm (h : Header G) : Bytes :=
  [h.version] ++ h.parentId ++ h.adProofsRoot ++ h.transactionRoot ++ h.stateRoot ++ vlq h.timestamp.toNat ++ h.extensionRoot ++
    four (h.nBits.toNat % 2 ^ 32) ++ vlq h.height.toNat ++ h.votes ++ (if h.version.toNat ≤ 1 then [] else [0])

/-- The solution: in version 1 with the second key and the distance, otherwise key and nonce. -/
def SolutionForm [DecidableEq G] (pc : PointCodec G) (version : Byte) (s : AutolykosSolution G) (b : Bytes) : Prop :=
  if version = 1 then
    ∃ w d x, s.onetimePk = some w ∧ s.distance = some d ∧ IsTwos d x ∧
      b = point pc s.minerPk ++ point pc w ++ s.nonce ++ [BitVec.ofNat 8 x.length] ++ x
  else b = point pc s.minerPk ++ s.nonce

/-! ## Scripts -/

/-- Codes of the nodes that have nothing but operands. -/
def opCode : SOp → Nat
  | .substConstants => 112 + 4
  | .longToByteArray => 112 + 10
  | .byteArrayToBigInt => 112 + 11
  | .byteArrayToLong => 112 + 12
  | .groupGenerator => 112 + 18
  | .ifOp => 112 + 37
  | .and => 112 + 38
  | .or => 112 + 39
  | .atleast => 112 + 40
  | .xor => 112 + 43
  | .exponentiate => 112 + 47
  | .multiplyGroup => 112 + 48
  | .height => 112 + 51
  | .inputs => 112 + 52
  | .outputs => 112 + 53
  | .selfBox => 112 + 55
  | .minerPubKey => 112 + 60
  | .map => 112 + 61
  | .anyOf => 112 + 62
  | .forAll => 112 + 63
  | .fold => 112 + 64
  | .sizeOf => 112 + 65
  | .append => 112 + 67
  | .slice => 112 + 68
  | .filter => 112 + 69
  | .treeLookup => 112 + 71
  | .extractAmount => 112 + 81
  | .extractScriptBytes => 112 + 82
  | .extractBytes => 112 + 83
  | .extractBytesWithNoRef => 112 + 84
  | .extractId => 112 + 85
  | .extractCreationInfo => 112 + 87
  | .calcBlake2b256 => 112 + 91
  | .calcSha256 => 112 + 92
  | .createProveDlog => 112 + 93
  | .createProveDhTuple => 112 + 94
  | .sigmaPropBytes => 112 + 96
  | .boolToSigmaProp => 112 + 97
  | .global => 112 + 109
  | .optionGet => 112 + 116
  | .optionGetOrElse => 112 + 117
  | .optionIsDefined => 112 + 118
  | .decodePoint => 112 + 126
  | .logicalNot => 112 + 127
  | .negation => 112 + 128
  | .bitInversion => 112 + 129
  | .context => 112 + 142
  | .xorOf => 112 + 143

/-- Codes of the nodes with two operands that may be packed. -/
def binCode : BinK → Nat
  | .lt => 112 + 31
  | .le => 112 + 32
  | .gt => 112 + 33
  | .ge => 112 + 34
  | .eq => 112 + 35
  | .neq => 112 + 36
  | .minus => 112 + 41
  | .plus => 112 + 42
  | .multiply => 112 + 44
  | .divide => 112 + 45
  | .modulo => 112 + 46
  | .min => 112 + 49
  | .max => 112 + 50
  | .or => 112 + 124
  | .and => 112 + 125
  | .bitOr => 112 + 130
  | .bitAnd => 112 + 131
  | .xor => 112 + 132
  | .bitXor => 112 + 133

/-- A code followed by other bytes. -/
def node (code : Nat) (b : Bytes) : Bytes := BitVec.ofNat 8 code :: b

/-- Two boolean constants as operands. -/
def boolPair : Expr G B → Expr G B → Option (Bool × Bool)
  | .const ⟨.bool, .bool x⟩, .const ⟨.bool, .bool y⟩ => some (x, y)
  | _, _ => none

mutual
/-- An expression, its constants in place. -/
def ExprForm [DecidableEq G] (E : Sers G B T) (tf : SType → Bytes → Prop) : Expr G B → Bytes → Prop
  | .const c, b => ConstForm E tf c b
  | .placeholder id _, b => b = node (112 + 3) (vlq id.toNat)
  | .valUse id _, b => b = node (112 + 2) (vlq id.toNat)
  | .bools l, b => ∃ x, IsBits l x ∧ b = node (112 + 21) (vlq (l.length % 2 ^ 16) ++ x)
  | .op o l, b => ∃ x, ExprsForm E tf l x ∧ b = node (opCode o) x
  | .bin k l r, b =>
    match boolPair l r with
    | some (x, y) => ∃ z, IsBits [x, y] z ∧ b = node (binCode k) (node (112 + 21) z)
    | none => ∃ x y, ExprForm E tf l x ∧ ExprForm E tf r y ∧ b = node (binCode k) (x ++ y)
  | .cast up e t, b => ∃ x y, ExprForm E tf e x ∧ tf t y ∧ b = node (if up then 112 + 14 else 112 + 13) (x ++ y)
  | .extractReg e r t, b => ∃ x y, ExprForm E tf e x ∧ tf t y ∧ b = node (112 + 86) (x ++ [r] ++ y)
  | .selectField e i, b => ∃ x, ExprForm E tf e x ∧ b = node (112 + 28) (x ++ [i])
  | .getVar i t, b => ∃ y, tf t y ∧ b = node (112 + 115) ([i] ++ y)
  | .deserCtx t i, b => ∃ y, tf t y ∧ b = node (112 + 100) (y ++ [i])
  | .deserReg r t d, b => ∃ y z, tf t y ∧ MaybeForm E tf d z ∧ b = node (112 + 101) ([r] ++ y ++ z)
  | .byIndex e i d, b => ∃ x y z, ExprForm E tf e x ∧ ExprForm E tf i y ∧ MaybeForm E tf d z ∧ b = node (112 + 66) (x ++ y ++ z)
  | .createAvl f g k v, b => ∃ w x y z, ExprForm E tf f w ∧ ExprForm E tf g x ∧ ExprForm E tf k y ∧ MaybeForm E tf v z ∧
      b = node (112 + 70) (w ++ x ++ y ++ z)
  | .coll t l, b => ∃ y x, tf t y ∧ ExprsForm E tf l x ∧ b = node (112 + 19) (vlq (l.length % 2 ^ 16) ++ y ++ x)
  | .tuple l, b => ∃ x, ExprsForm E tf l x ∧ b = node (112 + 22) ([BitVec.ofNat 8 l.length] ++ x)
  | .sigma isAnd l, b => ∃ x, ExprsForm E tf l x ∧ b = node (if isAnd then 112 + 122 else 112 + 123) (vlq (l.length % 2 ^ 32) ++ x)
  | .func l e, b => ∃ y x, Each (fun a z => ∃ t, tf a.2 t ∧ z = vlq a.1.toNat ++ t) l y ∧ ExprForm E tf e x ∧
      b = node (112 + 105) (vlq (l.length % 2 ^ 32) ++ y ++ x)
  | .apply f l, b => ∃ x y, ExprForm E tf f x ∧ ExprsForm E tf l y ∧ b = node (112 + 106) (x ++ vlq (l.length % 2 ^ 32) ++ y)
  | .block l e, b => ∃ x y, ExprsForm E tf l x ∧ ExprForm E tf e y ∧ b = node (112 + 104) (vlq (l.length % 2 ^ 32) ++ x ++ y)
  | .valDef id e, b => ∃ x, ExprForm E tf e x ∧ b = node (112 + 102) (vlq id.toNat ++ x)
  | .method ti mi _ e l, b => ∃ x y, ExprForm E tf e x ∧ ExprsForm E tf l y ∧
      b = node (112 + 108) ([ti] ++ [mi] ++ x ++ vlq (l.length % 2 ^ 32) ++ y)
  | .property ti mi _ e, b => ∃ x, ExprForm E tf e x ∧ b = node (112 + 107) ([ti] ++ [mi] ++ x)
/-- Expressions one after the other. -/
def ExprsForm [DecidableEq G] (E : Sers G B T) (tf : SType → Bytes → Prop) : List (Expr G B) → Bytes → Prop
  | [], b => b = []
  | e :: l, b => ∃ x y, ExprForm E tf e x ∧ ExprsForm E tf l y ∧ b = x ++ y
/-- An expression that may be missing. -/
def MaybeForm [DecidableEq G] (E : Sers G B T) (tf : SType → Bytes → Prop) : List (Expr G B) → Bytes → Prop
  | [], b => b = [0]
  | e :: _, b => ∃ x, ExprForm E tf e x ∧ b = 1 :: x
end

/-- The first byte of a tree. -/
def treeByte (version : Nat) (seg hasSize : Bool) : Nat := version + (if hasSize then 8 else 0) + (if seg then 16 else 0)

/-- A tree: the first byte, the size of the rest if it has one, the constants with their number if they are apart, the script. -/
def TreeForm [DecidableEq G] (E : Sers G B T) (tf : SType → Bytes → Prop) : ETree G B → Bytes → Prop
  | .unparsed x, b => b = x
  | .parsed h C e, b => ∃ cs x size, (if h.seg then ∃ y, Each (ConstForm E tf) C y ∧ C.length < 2 ^ 32 ∧ cs = vlq C.length ++ y else cs = []) ∧
      ExprForm E tf e x ∧ (if h.hasSize then (cs ++ x).length < 2 ^ 32 ∧ size = vlq (cs ++ x).length else size = []) ∧
      b = BitVec.ofNat 8 (treeByte h.version.toNat h.seg h.hasSize) :: (size ++ cs ++ x)


end
end Verif.Wire
