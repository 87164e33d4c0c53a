import Verif.Model.Register
import Verif.Model.BoxSelector

/-!
# Boxes and their byte form

Source: `ergotree-ir/src/chain/ergo_box.rs`.  ErgoTrees are values of a parameter type `T` with codec `E.tc`.
-/

namespace Verif

/-- `ErgoBoxCandidate`, `ergo_box.rs:229-242`. -/
structure BoxCand (G B T : Type) where
  value : Nat
  tree : T
  tokens : Option (List Token)
  regs : Regs G B
  height : BitVec 32

/-- `ErgoBox`, `ergo_box.rs:60-78`. -/
structure EBox (G B T : Type) where
  boxId : Bytes
  value : Nat
  tree : T
  tokens : Option (List Token)
  regs : Regs G B
  height : BitVec 32
  txId : Bytes
  index : BitVec 16

/-- An `IndexSet<TokenId>`: distinct ids in insertion order, `ergo-lib/src/chain/transaction.rs:228-242, 300`. -/
abbrev IdSet := List TokenId

/-- `IndexSet::insert`, `ergo-lib/src/chain/transaction.rs:228-242`. -/
def IdSet.add (s : IdSet) (x : TokenId) : IdSet := if x ∈ s then s else s ++ [x]

/-- `IndexSet::from_iter`, `ergo-lib/src/chain/transaction.rs:228-242`. -/
def IdSet.ofList (l : List TokenId) : IdSet := l.foldl IdSet.add []

/-- `IndexSet::get_full(..).map(|x| x.0)`: the position of an element, `ergotree-ir/src/chain/ergo_box.rs:322`. -/
def IdSet.indexOf : IdSet → TokenId → Option Nat
  | [], _ => none
  | y :: s, x => if y = x then some 0 else (IdSet.indexOf s x).map (· + 1)

/-- One token in `serialize_box_with_indexed_digests`, `ergo_box.rs:315-333`. -/
def serToken (ids : Option IdSet) (t : Token) : Outcome Bytes := do
  let b ← match ids with
    | some s =>
      match IdSet.indexOf s t.1 with
      | some i => putCount32 i
      | none => Outcome.panic
    | none => Outcome.ok t.1
  pure (b ++ putU64 (BitVec.ofNat 64 t.2))

/-- The id of one token in `parse_box_with_indexed_digests`, `ergo_box.rs:350-361`. -/
def getTokenId : Option IdSet → Parser TokenId
  | none => readExact 32
  | some digests => do
    let i ← getU32
    Parser.ofOption digests[i.toNat]?

/-- One token in `parse_box_with_indexed_digests`, `ergo_box.rs:350-366`. -/
def getToken (ids : Option IdSet) : Parser Token := do
  let id ← getTokenId ids
  let amount ← getU64
  let a ← Parser.ofOption (TokenAmount.tryFromU64 amount.toNat)
  pure (id, a)

/-- `ErgoBox::MAX_TOKENS_COUNT` bound of `BoxTokens::from_vec`, with `None` for no tokens, `ergo_box.rs:368-372`. -/
def boxTokensOf (l : List Token) : Option (Option (List Token)) :=
  if l.isEmpty then some none else if l.length ≤ maxTokensCount then some (some l) else none

section
variable {G B T : Type}

/-- `serialize_box_with_indexed_digests`, `ergo_box.rs:297-335`. -/
def serBoxWith [DecidableEq G] (E : Sers G B T) (value : Nat) (treeBytes : Bytes) (tokens : Option (List Token))
    (regs : Regs G B) (height : BitVec 32) (ids : Option IdSet) : Outcome Bytes := do
  let toks := tokens.getD []
  let n ← putCount8 toks.length
  let ts ← serMany (serToken ids) toks
  let rs ← regs.ser E
  pure (BoxValue.ser value ++ treeBytes ++ putU32 height ++ n ++ ts ++ rs)

/-- `parse_box_with_indexed_digests`, `ergo_box.rs:338-383`. -/
def parseBoxWith (E : Sers G B T) (ids : Option IdSet) : Parser (BoxCand G B T) := do
  let value ← BoxValue.parse
  let tree ← E.tc.parse
  let height ← getU32
  let n ← getU8
  let toks ← replicateP n.toNat (getToken ids)
  let tokens ← Parser.ofOption (boxTokensOf toks)
  let regs ← Regs.parse E
  pure { value := value, tree := tree, tokens := tokens, regs := regs, height := height }

/-- `serialize_body_with_indexed_digests`, `ergo_box.rs:247-261`. -/
def BoxCand.serWith [DecidableEq G] (E : Sers G B T) (ids : Option IdSet) (c : BoxCand G B T) : Outcome Bytes := do
  let tb ← E.tc.ser c.tree
  serBoxWith E c.value tb c.tokens c.regs c.height ids

/-- `ErgoBoxCandidate::sigma_serialize`, `ergo_box.rs:273-275`. -/
def BoxCand.ser [DecidableEq G] (E : Sers G B T) (c : BoxCand G B T) : Outcome Bytes := c.serWith E none

/-- `ErgoBoxCandidate::sigma_parse`, `ergo_box.rs:276-278`. -/
def BoxCand.parse (E : Sers G B T) : Parser (BoxCand G B T) := parseBoxWith E none

/-- `From<ErgoBox> for ErgoBoxCandidate`, `ergo_box.rs:281-291`. -/
def EBox.toCand (b : EBox G B T) : BoxCand G B T :=
  { value := b.value, tree := b.tree, tokens := b.tokens, regs := b.regs, height := b.height }

/-- `ErgoBox::sigma_serialize`, `ergo_box.rs:196-210`. -/
def EBox.ser [DecidableEq G] (E : Sers G B T) (b : EBox G B T) : Outcome Bytes := do
  let tb ← E.tc.ser b.tree
  let body ← serBoxWith E b.value tb b.tokens b.regs b.height none
  pure (body ++ b.txId ++ putU16 b.index)

/-- `calc_box_id`, `ergo_box.rs:143-147`. -/
def EBox.calcId [DecidableEq G] (E : Sers G B T) (b : EBox G B T) : Outcome Bytes := do
  let bytes ← b.ser E
  pure (E.H bytes)

/-- `ErgoBox::from_box_candidate`, `ergo_box.rs:121-141`; `ErgoBox::new` (`:88-112`) does the same from the single fields. -/
def EBox.ofCand [DecidableEq G] (E : Sers G B T) (c : BoxCand G B T) (txId : Bytes) (index : BitVec 16) :
    Outcome (EBox G B T) := do
  let b : EBox G B T :=
    { boxId := List.replicate 32 0, value := c.value, tree := c.tree, tokens := c.tokens, regs := c.regs,
      height := c.height, txId := txId, index := index }
  let id ← b.calcId E
  pure { b with boxId := id }

/-- `ErgoBox::sigma_parse`, `ergo_box.rs:211-216`. -/
def EBox.parse [DecidableEq G] (E : Sers G B T) : Parser (EBox G B T) := do
  let c ← parseBoxWith E none
  let txId ← readExact 32
  let index ← getU16
  Parser.ofOption (EBox.ofCand E c txId index).toOption

/-- The codec of boxes as used inside constants (`serialization/data.rs`). -/
def EBox.codec [DecidableEq G] (E : Sers G B T) : BoxCodec (EBox G B T) where
  ser := EBox.ser E
  parse := EBox.parse E

end
end Verif
