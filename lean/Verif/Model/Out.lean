import Verif.Model.Constant
import Verif.Model.Hash

/-!
# Writers that may fail

Writers of boxes and transactions can return `Err` or panic (`Outcome`).  The parameters on which all of them depend are
collected in `Sers`.
-/

namespace Verif

/-- Parameters of the box and transaction codecs: UTF-8 validity of type variable names, the group element codec, the codec
of boxes inside constants, the codec of ErgoTrees, and `blake2b256_hash`, used by `ergotree-ir/src/chain/ergo_box.rs:196-216`. -/
structure Sers (G B T : Type) where
  utf8 : Bytes → Bool
  pc : PointCodec G
  bc : BoxCodec B
  tc : BoxCodec T
  H : HashFn

/-- `items.iter().try_for_each(|i| i.sigma_serialize(w))`: the item loop of all list writers
(e.g. `ergo-lib/src/chain/transaction.rs:250`). -/
def serMany {α : Type} (f : α → Outcome Bytes) : List α → Outcome Bytes
  | [] => .ok []
  | a :: l => do
    let b ← f a
    let bs ← serMany f l
    pure (b ++ bs)

/-- `put_usize_as_u16_unwrapped`, `sigma-ser/src/vlq_encode.rs:56-59`. -/
def putCount16 (n : Nat) : Outcome Bytes :=
  match putUsizeAsU16 n with
  | some b => .ok b
  | none => .panic

/-- `w.put_u32(u32::try_from(n).unwrap())?`, `ergo-lib/src/chain/transaction.rs:263`,
`ergotree-ir/src/chain/ergo_box.rs:317-329`. -/
def putCount32 (n : Nat) : Outcome Bytes :=
  if n < 2 ^ 32 then .ok (putU32 (BitVec.ofNat 32 n)) else .panic

/-- `w.put_u8(u8::try_from(n).unwrap())?`, `ergotree-ir/src/chain/ergo_box.rs:313`. -/
def putCount8 (n : Nat) : Outcome Bytes :=
  if n < 2 ^ 8 then .ok (putU8 (BitVec.ofNat 8 n)) else .panic

/-- The `Result` of a conversion used inside a reader (`?`): an `Err` fails the read.  Simplification: a panic while
computing the result also counts as a failed read, e.g. `ergotree-ir/src/chain/ergo_box.rs:313`. -/
def Outcome.toOption {α : Type} : Outcome α → Option α
  | .ok a => some a
  | _ => none

end Verif
