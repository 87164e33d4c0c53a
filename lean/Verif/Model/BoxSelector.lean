import Verif.Model.Value
import Verif.Model.FMap

/-!
# Box selection

Source: `ergo-lib/src/wallet/box_selector.rs`, `ergo-lib/src/wallet/box_selector/simple.rs`.
Every `Err` variant is `Outcome.err` (payload dropped).
-/

namespace Verif

/-- `TokenId`, `ergotree-ir/src/chain/token.rs:20` (a 32-byte digest; the length plays no role here). -/
abbrev TokenId := Bytes

/-- `Token`, `ergotree-ir/src/chain/token.rs:172-179`. -/
abbrev Token := TokenId × Nat

/-- `HashMap<TokenId, TokenAmount>`, `ergo-lib/src/wallet/box_selector.rs:140-141`. -/
abbrev TokenMap := FMap TokenId Nat

/-- `ErgoBoxAssetsData`, `box_selector.rs:85-90`. -/
structure Assets where
  value : Nat
  tokens : Option (List Token)
  deriving DecidableEq, Repr

/-- `b.tokens().into_iter().flatten()`: the tokens of a box as a sequence, `ergo-lib/src/wallet/box_selector/simple.rs:63, 99`. -/
def Assets.toks (b : Assets) : List Token := b.tokens.getD []

/-- An input box (`T: ErgoBoxAssets + ErgoBoxId`): its id and assets, `ergo-lib/src/wallet/box_selector.rs:85-90, 123`. -/
structure InBox where
  id : Bytes
  assets : Assets
  deriving DecidableEq, Repr

/-- `ErgoBox::MAX_TOKENS_COUNT`, `ergotree-ir/src/chain/ergo_box.rs:85`. -/
def maxTokensCount : Nat := 122

/-- Turn `None` of a checked operation into `Err`, used at `ergo-lib/src/wallet/box_selector.rs:144, 161, 183`. -/
def ofOpt {α : Type} : Option α → Outcome α
  | some a => .ok a
  | none => .err

/-- `sum_value`, `box_selector.rs:135-137` (`.sum()` on `u64`). -/
def sumValueAux (m : Mode) : Nat → List Assets → Outcome Nat
  | acc, [] => .ok acc
  | acc, b :: bs => do
    let acc' ← addU64 m acc b.value
    sumValueAux m acc' bs

/-- `sum_value`, `box_selector.rs:135-137`. -/
def sumValue (m : Mode) (bs : List Assets) : Outcome Nat := sumValueAux m 0 bs

/-- The body of the accumulation loops in `sum_tokens` (`box_selector.rs:142-148`), `sum_tokens_from_boxes`
(`:159-167`), `sum_tokens_from_hashmaps` (`:181-188`) and `vec_tokens_to_map` (`tx_builder.rs:324-331`). -/
def addToken (res : TokenMap) (t : Token) : Outcome TokenMap :=
  match FMap.get res t.1 with
  | some amt => do
    let amt' ← ofOpt (TokenAmount.checkedAdd amt t.2)
    pure (FMap.insert res t.1 amt')
  | none => pure (FMap.insert res t.1 t.2)

/-- `try_for_each` of `addToken`, `ergo-lib/src/wallet/box_selector.rs:142-148`. -/
def addTokens : TokenMap → List Token → Outcome TokenMap
  | res, [] => pure res
  | res, t :: ts => do
    let res' ← addToken res t
    addTokens res' ts

/-- `sum_tokens`, `box_selector.rs:140-151`. -/
def sumTokens (ts : List Token) : Outcome TokenMap := addTokens [] ts

/-- `sum_tokens_from_boxes`, `box_selector.rs:154-170`. -/
def sumTokensFromBoxes (bs : List Assets) : Outcome TokenMap := addTokens [] (bs.flatMap Assets.toks)

/-- `sum_tokens_from_hashmaps`, `box_selector.rs:173-190` (iteration order of the two maps does not influence the
sums). -/
def sumTokensFromMaps (m1 m2 : TokenMap) : Outcome TokenMap := addTokens [] (m1 ++ m2)

/-- Body of the loop in `subtract_tokens`, `box_selector.rs:200-212`. -/
def subtractToken (res : TokenMap) (t : Token) : Outcome TokenMap :=
  match FMap.get res t.1 with
  | some amt =>
    if amt = t.2 then pure (FMap.erase res t.1)
    else do
      let amt' ← ofOpt (TokenAmount.checkedSub amt t.2)
      pure (FMap.insert res t.1 amt')
  | none => .err

/-- `subtract_tokens`, `box_selector.rs:195-214`. -/
def subtractTokens : TokenMap → TokenMap → Outcome TokenMap
  | res, [] => pure res
  | res, t :: ts => do
    let res' ← subtractToken res t
    subtractTokens res' ts

/-- Loop state of `SimpleBoxSelector::select`, `simple.rs:49-57`. -/
structure SelState where
  selected : List InBox
  value : Nat
  left : TokenMap
  hasValueChange : Bool
  hasTokenChange : Bool

/-- Reduction of the amount still needed, `simple.rs:105-109`. -/
def reduceNeed (left : TokenMap) (t : Token) (need : Nat) : Outcome TokenMap :=
  if need ≤ t.2 then pure (FMap.erase left t.1)
  else do
    let a ← ofOpt (TokenAmount.checkedSub need t.2)
    pure (FMap.insert left t.1 a)

/-- Closure over the tokens of a selected box, `simple.rs:100-121`. -/
def takeToken (st : TokenMap × TokenMap) (t : Token) : Outcome (TokenMap × TokenMap) :=
  match FMap.get st.1 t.1 with
  | none => pure st
  | some need => do
    let left' ← reduceNeed st.1 t need
    let sel := min t.2 need
    match FMap.get st.2 t.1 with
    | some a => do
      let a' ← ofOpt (TokenAmount.checkedAdd a sel)
      pure (left', FMap.insert st.2 t.1 a')
    | none => pure (left', FMap.insert st.2 t.1 sel)

/-- `try_for_each` over the tokens of the box, `simple.rs:97-121`. -/
def takeTokens : TokenMap × TokenMap → List Token → Outcome (TokenMap × TokenMap)
  | st, [] => pure st
  | st, t :: ts => do
    let st' ← takeToken st t
    takeTokens st' ts

/-- Whether the next box is taken, `simple.rs:77-90`. -/
def selectCond (target : Nat) (st : SelState) (b : InBox) : Bool :=
  let valueChangeAmt := if target > st.value then 0 else st.value - target
  decide (target > st.value)
    || (st.hasValueChange || st.hasTokenChange) && decide (valueChangeAmt < BoxValue.safeUserMin)
    || (!st.left.isEmpty && b.assets.toks.any fun t => FMap.contains st.left t.1)

/-- One iteration of the selection loop, `simple.rs:76-129`. -/
def selectStep (m : Mode) (target : Nat) (st : SelState) (b : InBox) : Outcome SelState :=
  if selectCond target st b then do
    let value' ← addU64 m st.value b.assets.value
    let hv := st.hasValueChange || decide (value' > target)
    let r ← takeTokens (st.left, []) b.assets.toks
    let s ← sumTokens b.assets.toks
    let ht := st.hasTokenChange || !FMap.mapEq s r.2
    pure { selected := st.selected ++ [b], value := value', left := r.1, hasValueChange := hv, hasTokenChange := ht }
  else pure st

/-- The selection loop, `simple.rs:76-129`. -/
def selectLoop (m : Mode) (target : Nat) : SelState → List InBox → Outcome SelState
  | st, [] => pure st
  | st, b :: bs => do
    let st' ← selectStep m target st b
    selectLoop m target st' bs

/-- Number of target tokens in a box, `simple.rs:60-65`. -/
def targetTokensCount (target : TokenMap) (b : InBox) : Nat :=
  (b.assets.toks.filter fun t => FMap.contains target t.1).length

/-- Insertion into a list sorted by `key`, before later equal elements (stability), for the `sort_by` at
`ergo-lib/src/wallet/box_selector/simple.rs:59`. -/
def insertByKey (key : InBox → Nat) (b : InBox) : List InBox → List InBox
  | [] => [b]
  | c :: cs => if key b ≤ key c then b :: c :: cs else c :: insertByKey key b cs

/-- Stable sort by `key` (`slice::sort_by`, `simple.rs:59-73`). Simplification: the algorithm is insertion sort, any
stable sort gives the same list. -/
def sortByKey (key : InBox → Nat) : List InBox → List InBox
  | [] => []
  | b :: bs => insertByKey key b (sortByKey key bs)

/-- Removal of the target tokens from the change tokens, `simple.rs:153-166`. -/
def removeTargets : TokenMap → List Token → Outcome TokenMap
  | change, [] => pure change
  | change, t :: ts =>
    match FMap.get change t.1 with
    | some sel =>
      if sel = t.2 then removeTargets (FMap.erase change t.1) ts
      else if sel > t.2 then do
        let a ← ofOpt (TokenAmount.checkedSub sel t.2)
        removeTargets (FMap.insert change t.1 a) ts
      else .err
    | none => .err

/-- The `while` loop of `make_change_boxes`, `simple.rs:249-285`. -/
def makeChangeLoop (value : Nat) (toks : List Token) : Outcome (List Assets) :=
  if toks = [] then pure []
  else if h : toks.length ≤ maxTokensCount then pure [{ value := value, tokens := some toks }]
  else
    match BoxValue.checkedMulU32 BoxValue.safeUserMin 2#32 with
    | none => .panic
    | some v => do
      let value' ← ofOpt (BoxValue.checkedSub value v)
      let rest ← makeChangeLoop value' (toks.drop maxTokensCount)
      pure ({ value := v, tokens := some (toks.take maxTokensCount) } :: rest)
termination_by toks.length
decreasing_by simp only [List.length_drop, maxTokensCount] at *; omega

/-- `make_change_boxes`, `simple.rs:230-287`; `ord` is the iteration order of the `HashMap`. -/
def makeChangeBoxes (ord : TokenMap → List Token) (value : Nat) (change : TokenMap) : Outcome (List Assets) :=
  if change.isEmpty then pure [{ value := value, tokens := none }]
  else if change.length ≤ maxTokensCount then pure [{ value := value, tokens := some (ord change) }]
  else makeChangeLoop value (ord change)

/-- `check_input_preservation`, `simple.rs:197-222`. -/
def checkInputPreservation (m : Mode) (selected : List Assets) (change : List Assets) (target : Nat)
    (targetTokens : List Token) : Outcome Unit := do
  let si ← sumValue m selected
  let sc ← sumValue m change
  let rhs ← addU64 m sc target
  if si ≠ rhs then .err
  else do
    let ti ← sumTokensFromBoxes selected
    let tc ← sumTokensFromBoxes change
    let tt ← sumTokens targetTokens
    let r ← sumTokensFromMaps tc tt
    if FMap.mapEq ti r then pure () else .err

/-- `BoxSelection`, `box_selector.rs:26-31`. -/
structure BoxSelection where
  boxes : List InBox
  changeBoxes : List Assets
  deriving DecidableEq, Repr

/-- Change boxes of a finished selection, `simple.rs:140-168`. -/
def selectChange (ord : TokenMap → List Token) (target : Nat) (targetTokens : List Token)
    (st : SelState) : Outcome (List Assets) :=
  if !st.hasValueChange && !st.hasTokenChange then pure []
  else do
    let cv ← ofOpt (BoxValue.tryFromU64 (st.value - target))
    let ct ← sumTokensFromBoxes (st.selected.map InBox.assets)
    let ct' ← removeTargets ct targetTokens
    makeChangeBoxes ord cv ct'

/-- Everything after the selection loop, `simple.rs:130-181`. -/
def selectFinish (m : Mode) (ord : TokenMap → List Token) (target : Nat) (targetTokens : List Token)
    (st : SelState) : Outcome BoxSelection :=
  if st.value < target then .err
  else if !targetTokens.isEmpty && !st.left.isEmpty then .err
  else do
    let change ← selectChange ord target targetTokens st
    let _ ← checkInputPreservation m (st.selected.map InBox.assets) change target targetTokens
    -- `SelectedBoxes` is a `BoundedVec<T, 1, 65535>`, `box_selector.rs:22`
    if 1 ≤ st.selected.length ∧ st.selected.length ≤ 65535 then
      pure { boxes := st.selected, changeBoxes := change }
    else .err

/-- `SimpleBoxSelector::select`, `simple.rs:43-182`. -/
def select (m : Mode) (ord : TokenMap → List Token) (inputs : List InBox) (target : Nat)
    (targetTokens : List Token) : Outcome BoxSelection := do
  let left ← sumTokens targetTokens
  let sorted := (sortByKey (targetTokensCount left) inputs).reverse
  let st ← selectLoop m target
    { selected := [], value := 0, left := left, hasValueChange := false, hasTokenChange := false } sorted
  selectFinish m ord target targetTokens st

end Verif
