import Verif.Model.FMap
import Verif.Model.Value
import Verif.Model.Json
import Verif.Model.BigInt

/-!
# Memory of the C interface

`bindings/ergo-lib-c-core` (functions on raw pointers that return `Result`) and `bindings/ergo-lib-c` (the `extern "C"` functions around
them).  The heap of the library is a finite map from addresses to objects; the variables and buffers of the caller are two further maps.
Reading or freeing through a pointer that is neither null nor the address of a live object of the right type is undefined behaviour, and so
is writing through a null pointer: the run ends with `ub`.  A Rust panic inside an `extern "C"` function ends with `panic`.
Simplifications: addresses of the heap, of variables and of buffers are separate spaces; a C string argument is its text (or null); running
out of memory is left out; single threaded.
-/

namespace Verif
namespace CApi

/-- An address, e.g. the inside of `CollectionPtr`, `bindings/ergo-lib-c-core/src/collections.rs:11`. -/
abbrev Addr := Nat

/-- A raw pointer, null or an address, e.g. `bindings/ergo-lib-c-core/src/collections.rs:11-12`. -/
abbrev Ptr := Option Addr

/-- `Error`, `bindings/ergo-lib-c-core/src/error.rs:9-15`.  Simplification: what is in `Misc` is a short name of the cause. -/
inductive CErr
  | misc (what : String)
  | invalidArgument (name : String)
  deriving DecidableEq, Repr

/-- The wrapped values of `bindings/ergo-lib-c-core/src/token.rs:19-21, 53-55, 76-78`, `ergo_box.rs:36-38, 65-67`, `secret_key.rs:11-13`,
`util.rs:30-32`.  Simplification: the other wrapped types of the interface are left out. -/
inductive Val
  | boxId (d : Bytes)
  | boxValue (n : Nat)
  | tokenId (d : Bytes)
  | tokenAmount (n : Nat)
  | token (d : Bytes) (n : Nat)
  | secretKey (w : Bytes)
  | byteArray (b : Bytes)
  deriving DecidableEq, Repr

/-- The Rust types of these values, `bindings/ergo-lib-c-core/src/token.rs:20, 54, 77`, `ergo_box.rs:37, 66`, `secret_key.rs:12`, `util.rs:31`. -/
inductive Kind
  | boxId | boxValue | tokenId | tokenAmount | token | secretKey | byteArray
  deriving DecidableEq, Repr

/-- The type of a value, `bindings/ergo-lib-c-core/src/token.rs:20, 54, 77`, `ergo_box.rs:37, 66`, `secret_key.rs:12`, `util.rs:31`. -/
def Val.kind : Val → Kind
  | .boxId _ => .boxId
  | .boxValue _ => .boxValue
  | .tokenId _ => .tokenId
  | .tokenAmount _ => .tokenAmount
  | .token _ _ => .token
  | .secretKey _ => .secretKey
  | .byteArray _ => .byteArray

/-- What is behind a pointer of the library: a value, a `Collection<T>` (`bindings/ergo-lib-c-core/src/collections.rs:10`), an `Error`
(`error.rs:10`), a C string made by `CString::into_raw` (`bindings/ergo-lib-c/src/token.rs:43`), the vector of strings and the pair of
pointer and length of `CStringCollection` (`rest/c_string_collection.rs:7-16`). -/
inductive Obj
  | val (v : Val)
  | coll (k : Kind) (vs : List Val)
  | error (e : CErr)
  | cstr (t : Text)
  | strVec (ps : List Addr)
  | strColl (vec : Addr) (len : Nat)
  deriving DecidableEq

/-- The memory: objects of the library, pointer variables and byte buffers of the caller, `bindings/ergo-lib-c-core/src/collections.rs:14-18`
(`collection_out`), `util.rs:36` (`ptr`). -/
structure Mem where
  heap : FMap Addr Obj
  outs : FMap Addr Ptr
  bufs : FMap Addr Bytes
  deriving DecidableEq

/-- The environment: where `Box::new` puts a new object (any address not in use), `bindings/ergo-lib-c-core/src/collections.rs:16`, and the
order of the group (`secret_key.rs:26`). -/
structure Env where
  pick : FMap Addr Obj → Addr
  fresh : ∀ h, FMap.get h (pick h) = none
  order : Nat

/-- How a function ends: with its `Result` and the memory, by a panic, or without a meaning, `bindings/ergo-lib-c-core/src/util.rs:6-27, 47-51`. -/
inductive Step (α : Type)
  | done (r : Except CErr α) (m : Mem)
  | panic
  | ub

/-- A function on the memory, e.g. `bindings/ergo-lib-c-core/src/collections.rs:14`. -/
def Run (α : Type) := Mem → Step α

namespace Run
variable {α β : Type}

/-- `Ok(_)`, e.g. `bindings/ergo-lib-c-core/src/collections.rs:17`. -/
def ret (a : α) : Run α := fun m => .done (.ok a) m

/-- `Err(_)`, e.g. `bindings/ergo-lib-c-core/src/util.rs:13`. -/
def fail (e : CErr) : Run α := fun m => .done (.error e) m

/-- The operator `?`, e.g. `bindings/ergo-lib-c-core/src/collections.rs:15`. -/
def andThen (x : Run α) (f : α → Run β) : Run β := fun m =>
  match x m with
  | .done (.ok a) m' => f a m'
  | .done (.error e) m' => .done (.error e) m'
  | .panic => .panic
  | .ub => .ub

/-- The sequence of statements with `?`, e.g. `bindings/ergo-lib-c-core/src/collections.rs:14-18`. -/
instance : Monad Run where
  pure := ret
  bind := andThen

/-- `.unwrap()` of the result, e.g. `bindings/ergo-lib-c/src/macros.rs:70`. -/
def unwrap (x : Run α) : Run α := fun m =>
  match x m with
  | .done (.error _) _ => .panic
  | s => s

end Run

/-- `const_ptr_as_ref`, `bindings/ergo-lib-c-core/src/util.rs:6-15`. -/
def constPtrAsRef (p : Ptr) (name : String) : Run Obj := fun m =>
  match p with
  | none => .done (.error (.invalidArgument name)) m
  | some a =>
    match FMap.get m.heap a with
    | some o => .done (.ok o) m
    | none => .ub

/-- A `&T` for a value type `T`: the pointer has to be to a value of that type, `bindings/ergo-lib-c-core/src/util.rs:10`. -/
def asVal (k : Kind) (o : Obj) : Run Val := fun m =>
  match o with
  | .val v => if v.kind = k then .done (.ok v) m else .ub
  | _ => .ub

/-- A `&Collection<T>`, `bindings/ergo-lib-c-core/src/collections.rs:28`. -/
def asColl (k : Kind) (o : Obj) : Run (List Val) := fun m =>
  match o with
  | .coll k' vs => if k' = k then .done (.ok vs) m else .ub
  | _ => .ub

/-- `const_ptr_as_ref` at a value type, e.g. `bindings/ergo-lib-c-core/src/token.rs:88`. -/
def readVal (k : Kind) (p : Ptr) (name : String) : Run Val := do
  let o ← constPtrAsRef p name
  asVal k o

/-- `const_ptr_as_ref` and `mut_ptr_as_mut` at `Collection<T>`, `bindings/ergo-lib-c-core/src/collections.rs:28, 37, 50`; `util.rs:18-27`. -/
def readColl (k : Kind) (p : Ptr) (name : String) : Run (List Val) := do
  let o ← constPtrAsRef p name
  asColl k o

/-- `mut_ptr_as_mut` at a pointer variable of the caller, e.g. `bindings/ergo-lib-c-core/src/collections.rs:15`; `util.rs:18-27`. -/
def outPtr (p : Ptr) (name : String) : Run Addr := fun m =>
  match p with
  | none => .done (.error (.invalidArgument name)) m
  | some a =>
    match FMap.get m.outs a with
    | some _ => .done (.ok a) m
    | none => .ub

/-- Writing through `*out` without a check, e.g. `bindings/ergo-lib-c-core/src/secret_key.rs:27, 36`. -/
def rawOut (p : Ptr) : Run Addr := fun m =>
  match p with
  | none => .ub
  | some a =>
    match FMap.get m.outs a with
    | some _ => .done (.ok a) m
    | none => .ub

/-- `Box::into_raw(Box::new(_))`, e.g. `bindings/ergo-lib-c-core/src/collections.rs:16`. -/
def alloc (E : Env) (o : Obj) : Run Addr := fun m =>
  let a := E.pick m.heap
  .done (.ok a) { m with heap := FMap.insert m.heap a o }

/-- `*out = p`, e.g. `bindings/ergo-lib-c-core/src/collections.rs:16`.  The former value of the variable is lost, not freed. -/
def setOut (out : Addr) (p : Ptr) : Run Unit := fun m =>
  .done (.ok ()) { m with outs := FMap.insert m.outs out p }

/-- `*out = Box::into_raw(Box::new(o)); Ok(())`, e.g. `bindings/ergo-lib-c-core/src/collections.rs:16-17`. -/
def give (E : Env) (out : Addr) (o : Obj) : Run Unit := do
  let a ← alloc E o
  setOut out (some a)

/-- `std::slice::from_raw_parts(ptr, len)`: not for null, and `len` bytes have to be there, `bindings/ergo-lib-c-core/src/util.rs:40`. -/
def rawParts (p : Ptr) (len : Nat) : Run Bytes := fun m =>
  match p with
  | none => .ub
  | some a =>
    match FMap.get m.bufs a with
    | some b => if len ≤ b.length then .done (.ok (b.take len)) m else .ub
    | none => .ub

/-- `std::ptr::copy_nonoverlapping(src, output, n)` with `n` the length of `src`, `bindings/ergo-lib-c-core/src/ergo_box.rs:60`,
`secret_key.rs:63`. -/
def copyOut (src : Bytes) (output : Ptr) : Run Unit := fun m =>
  match output with
  | none => .ub
  | some a =>
    match FMap.get m.bufs a with
    | some b =>
      if src.length ≤ b.length then .done (.ok ()) { m with bufs := FMap.insert m.bufs a (src ++ b.drop src.length) } else .ub
    | none => .ub

/-! ## Collections -/

/-- `collection_new`, `bindings/ergo-lib-c-core/src/collections.rs:14-18`. -/
def collectionNew (E : Env) (k : Kind) (out : Ptr) : Run Unit := do
  let o ← outPtr out "collection_out"
  give E o (.coll k [])

/-- `Box::from_raw` and drop of an object that `good` says to be of the right type, `bindings/ergo-lib-c-core/src/collections.rs:22-23`. -/
def free (good : Obj → Bool) (a : Addr) : Run Unit := fun m =>
  match FMap.get m.heap a with
  | some o => if good o then .done (.ok ()) { m with heap := FMap.erase m.heap a } else .ub
  | none => .ub

/-- `collection_delete`, `bindings/ergo-lib-c-core/src/collections.rs:20-25`. -/
def collectionDelete (k : Kind) (p : Ptr) : Run Unit :=
  match p with
  | none => pure ()
  | some a => free (fun o => match o with | .coll k' _ => k' = k | _ => false) a

/-- `collection_len`, `bindings/ergo-lib-c-core/src/collections.rs:27-30`. -/
def collectionLen (k : Kind) (p : Ptr) : Run Nat := do
  let vs ← readColl k p "collection"
  pure vs.length

/-- `collection_get`, `bindings/ergo-lib-c-core/src/collections.rs:32-44`. -/
def collectionGet (E : Env) (k : Kind) (p : Ptr) (index : Nat) (out : Ptr) : Run Bool := do
  let vs ← readColl k p "collection"
  let o ← outPtr out "elem_out"
  match vs[index]? with
  | some v => do
    give E o (.val v)
    pure true
  | none => pure false

/-- `collection_out.0.push(_)` behind the pointer, `bindings/ergo-lib-c-core/src/collections.rs:52`. -/
def store (a : Ptr) (o : Obj) : Run Unit := fun m =>
  match a with
  | none => .ub
  | some a => .done (.ok ()) { m with heap := FMap.insert m.heap a o }

/-- `collection_add`, `bindings/ergo-lib-c-core/src/collections.rs:46-54`. -/
def collectionAdd (k : Kind) (p elem : Ptr) : Run Unit := do
  let vs ← readColl k p "collection_out"
  let v ← readVal k elem "elem"
  store p (.coll k (vs ++ [v]))

/-! ## Values -/

/-- `byte_array_from_raw_parts`, `bindings/ergo-lib-c-core/src/util.rs:35-44`. -/
def byteArrayFromRawParts (E : Env) (p : Ptr) (len : Nat) (out : Ptr) : Run Unit := do
  let b ← rawParts p len
  let o ← outPtr out "byte_array_out"
  give E o (.val (.byteArray b))

/-- `deref_eq`, `bindings/ergo-lib-c-core/src/util.rs:47-51`. -/
def derefEq (k : Kind) (p q : Ptr) : Run Bool := do
  let x ← Run.unwrap (readVal k p "x_ptr")
  let y ← Run.unwrap (readVal k q "y_ptr")
  pure (decide (x = y))

/-- `delete_ptr`, `bindings/ergo-lib-c/src/lib.rs:136-141`. -/
def deletePtr (k : Kind) (p : Ptr) : Run Unit :=
  match p with
  | none => pure ()
  | some a => free (fun o => match o with | .val v => v.kind = k | _ => false) a

/-- A digest of 32 bytes from base 16, `ergo-chain-types/src/digest32.rs:103-111`, used at `bindings/ergo-lib-c-core/src/ergo_box.rs:44`,
`token.rs:37-41`. -/
def digestOfStr (s : Text) : Run Bytes :=
  match Json.hexDec s with
  | none => Run.fail (.misc "base16")
  | some b => if b.length = 32 then pure b else Run.fail (.misc "digest length")

/-- `box_id_from_str`, `bindings/ergo-lib-c-core/src/ergo_box.rs:42-47`. -/
def boxIdFromStr (E : Env) (s : Text) (out : Ptr) : Run Unit := do
  let o ← outPtr out "box_id_out"
  let d ← digestOfStr s
  give E o (.val (.boxId d))

/-- The bytes of a digest, number of an amount or scalar of a key, `bindings/ergo-lib-c-core/src/token.rs:31, 69`, `ergo_box.rs:59`. -/
def Val.digest : Val → Bytes
  | .boxId d => d
  | .tokenId d => d
  | .token d _ => d
  | .secretKey w => w
  | .byteArray b => b
  | _ => []

/-- The number in a value, `bindings/ergo-lib-c-core/src/token.rs:70, 94`, `ergo_box.rs:99`. -/
def Val.amount : Val → Nat
  | .boxValue n => n
  | .tokenAmount n => n
  | .token _ n => n
  | _ => 0

/-- `box_id_to_str` and `token_id_to_str`, `bindings/ergo-lib-c-core/src/ergo_box.rs:50-53`, `token.rs:48-51`. -/
def idToStr (k : Kind) (name : String) (p : Ptr) : Run Text := do
  let v ← readVal k p name
  pure (Json.hexEnc v.digest)

/-- `box_id_to_bytes` and `secret_key_to_bytes`, `bindings/ergo-lib-c-core/src/ergo_box.rs:57-62`, `secret_key.rs:57-65`. -/
def valToBytes (k : Kind) (name : String) (p output : Ptr) : Run Unit := do
  let v ← readVal k p name
  copyOut v.digest output

/-- `token_id_from_box_id`, `bindings/ergo-lib-c-core/src/token.rs:25-33`. -/
def tokenIdFromBoxId (E : Env) (p out : Ptr) : Run Unit := do
  let v ← readVal .boxId p "box_id_ptr"
  let o ← outPtr out "token_id_out"
  give E o (.val (.tokenId v.digest))

/-- `token_id_from_str`, `bindings/ergo-lib-c-core/src/token.rs:36-45`. -/
def tokenIdFromStr (E : Env) (s : Text) (out : Ptr) : Run Unit := do
  let o ← outPtr out "token_id_out"
  let d ← digestOfStr s
  give E o (.val (.tokenId d))

/-- `token_amount_from_i64`, `bindings/ergo-lib-c-core/src/token.rs:59-67`; the cast `amount as u64`. -/
def tokenAmountFromI64 (E : Env) (amount : BitVec 64) (out : Ptr) : Run Unit := do
  let o ← outPtr out "token_amount_out"
  match TokenAmount.tryFromU64 amount.toNat with
  | some n => give E o (.val (.tokenAmount n))
  | none => Run.fail (.misc "token amount out of bounds")

/-- `token_amount_as_i64` and `box_value_as_i64`, `bindings/ergo-lib-c-core/src/token.rs:70-73`, `ergo_box.rs:97-100`; the conversion to
`i64` is a cast (`ergotree-ir/src/chain/token.rs:157-161`). -/
def amountAsI64 (k : Kind) (name : String) (p : Ptr) : Run Int := do
  let v ← readVal k p name
  pure (BitVec.ofNat 64 v.amount).toInt

/-- `token_new`, `bindings/ergo-lib-c-core/src/token.rs:82-95`. -/
def tokenNew (E : Env) (id amount out : Ptr) : Run Unit := do
  let i ← readVal .tokenId id "token_id_ptr"
  let n ← readVal .tokenAmount amount "token_amount_ptr"
  let o ← outPtr out "token_out"
  give E o (.val (.token i.digest n.amount))

/-- `token_get_id`, `bindings/ergo-lib-c-core/src/token.rs:98-106`. -/
def tokenGetId (E : Env) (p out : Ptr) : Run Unit := do
  let t ← readVal .token p "token_ptr"
  let o ← outPtr out "token_id_out"
  give E o (.val (.tokenId t.digest))

/-- `token_get_amount`, `bindings/ergo-lib-c-core/src/token.rs:109-117`. -/
def tokenGetAmount (E : Env) (p out : Ptr) : Run Unit := do
  let t ← readVal .token p "token_ptr"
  let o ← outPtr out "token_amount_out"
  give E o (.val (.tokenAmount t.amount))

/-- `box_value_from_i64`, `bindings/ergo-lib-c-core/src/ergo_box.rs:86-94`; the cast `amount as u64`. -/
def boxValueFromI64 (E : Env) (amount : BitVec 64) (out : Ptr) : Run Unit := do
  let o ← outPtr out "box_value_out"
  match BoxValue.tryFromU64 amount.toNat with
  | some n => give E o (.val (.boxValue n))
  | none => Run.fail (.misc "box value out of bounds")

/-- The sum and its checks, `bindings/ergo-lib-c-core/src/ergo_box.rs:112-118`; the addition is that of `i64` with a check of overflow. -/
def sumChecked (x y : Nat) : Except CErr Nat :=
  let s := (BitVec.ofNat 64 x).toInt + (BitVec.ofNat 64 y).toInt
  if s < -(2 ^ 63) ∨ 2 ^ 63 ≤ s then .error (.misc "overflow")
  else
    match BoxValue.tryFromU64 (BitVec.ofInt 64 s).toNat with
    | some n => .ok n
    | none => .error (.misc "box value out of bounds")

/-- `box_value_sum_of`, `bindings/ergo-lib-c-core/src/ergo_box.rs:104-120`. -/
def boxValueSumOf (E : Env) (p q out : Ptr) : Run Unit := do
  let x ← readVal .boxValue p "box_value0_ptr"
  let y ← readVal .boxValue q "box_value1_ptr"
  let o ← outPtr out "sum_of_out"
  match sumChecked x.amount y.amount with
  | .ok n => give E o (.val (.boxValue n))
  | .error e => Run.fail e

/-- `secret_key_from_bytes`, `bindings/ergo-lib-c-core/src/secret_key.rs:17-32`; a scalar is a number below the order of the group
(`ergotree-interpreter/src/sigma_protocol/private_input.rs:51-55`). -/
def secretKeyFromBytes (E : Env) (p out : Ptr) : Run Unit :=
  match p with
  | none => Run.fail (.misc "bytes_ptr is null")
  | some _ => do
    let b ← rawParts p 32
    if beNat b < E.order then do
      let o ← rawOut out
      give E o (.val (.secretKey b))
    else Run.fail (.misc "failed to parse scalar")

/-- `secret_key_generate_random`, `bindings/ergo-lib-c-core/src/secret_key.rs:35-40`; `w` is the number drawn. -/
def secretKeyGenerateRandom (E : Env) (w : Nat) (out : Ptr) : Run Unit := do
  let o ← rawOut out
  give E o (.val (.secretKey (natBe 32 (w % E.order))))

/-! ## The functions with C linkage -/

/-- `Error::c_api_from`, `bindings/ergo-lib-c-core/src/error.rs:27-32`. -/
def cApiFrom (E : Env) (x : Run Unit) : Run Ptr := fun m =>
  match x m with
  | .done (.ok ()) m' => .done (.ok none) m'
  | .done (.error e) m' => (do let a ← alloc E (.error e); pure (some a) : Run Ptr) m'
  | .panic => .panic
  | .ub => .ub

/-- The returned C value: nothing, a number, a boolean, an error pointer, `ReturnOption` (`bindings/ergo-lib-c/src/lib.rs:121-125`) or a string
pointer. -/
inductive CRet
  | unit
  | num (n : Int)
  | bool (b : Bool)
  | errPtr (p : Ptr)
  | option (isSome : Bool) (p : Ptr)
  | str (p : Ptr)
  deriving DecidableEq

/-- The modelled functions with C linkage and their arguments: those made by `make_collection!` and `make_ffi_eq!`
(`bindings/ergo-lib-c/src/macros.rs:60-137`), `byte_array.rs:12-24`, `token.rs:13-138`, `ergo_box.rs:40-128`, `secret_key.rs:6-48`,
`lib.rs:77-101`. -/
inductive Call
  | collNew (k : Kind) (out : Ptr)
  | collDelete (k : Kind) (p : Ptr)
  | collLen (k : Kind) (p : Ptr)
  | collGet (k : Kind) (p : Ptr) (index : Nat) (out : Ptr)
  | collAdd (k : Kind) (elem p : Ptr)
  | eq (k : Kind) (p q : Ptr)
  | delete (k : Kind) (p : Ptr)
  | byteArrayFromRawParts (p : Ptr) (len : Nat) (out : Ptr)
  | boxIdFromStr (s : Option Text) (out : Ptr)
  | boxIdToStr (p out : Ptr)
  | boxIdToBytes (p output : Ptr)
  | boxValueFromI64 (amount : BitVec 64) (out : Ptr)
  | boxValueAsI64 (p : Ptr)
  | boxValueSumOf (p q out : Ptr)
  | tokenIdFromBoxId (p out : Ptr)
  | tokenIdFromStr (s : Option Text) (out : Ptr)
  | tokenIdToStr (p out : Ptr)
  | tokenAmountFromI64 (amount : BitVec 64) (out : Ptr)
  | tokenAmountAsI64 (p : Ptr)
  | tokenNew (id amount out : Ptr)
  | tokenGetId (p out : Ptr)
  | tokenGetAmount (p out : Ptr)
  | secretKeyFromBytes (p out : Ptr)
  | secretKeyGenerateRandom (w : Nat) (out : Ptr)
  | secretKeyToBytes (p output : Ptr)
  | errorToString (p : Ptr)
  | deleteError (p : Ptr)
  | deleteString (p : Ptr)

/-- `CStr::from_ptr(_)`, e.g. `bindings/ergo-lib-c/src/token.rs:29`: null is undefined. -/
def cStr (s : Option Text) : Run Text := fun m =>
  match s with
  | none => .ub
  | some t => .done (.ok t) m

/-- `*_str = CString::new(s).unwrap().into_raw()`, `bindings/ergo-lib-c/src/token.rs:42-43`, `ergo_box.rs:59-60`; the text has no NUL (base 16). -/
def strOut (E : Env) (x : Run Text) (out : Ptr) : Run Unit := do
  let s ← Run.unwrap x
  let o ← rawOut out
  give E o (.cstr s)

/-- The text of an error (`thiserror`), `bindings/ergo-lib-c-core/src/error.rs:11-14`. -/
def errText : CErr → Text
  | .misc w => "error: ".toList ++ w.toList
  | .invalidArgument n => "invalid argument: ".toList ++ n.toList

/-- `CString::new(t).unwrap().into_raw()`, `bindings/ergo-lib-c/src/lib.rs:97, 99`: a text with NUL panics. -/
def newCString (E : Env) (t : Text) : Run Ptr := fun m =>
  if Char.ofNat 0 ∈ t then .panic else (do let a ← alloc E (.cstr t); pure (some a) : Run Ptr) m

/-- `ergo_lib_error_to_string`, `bindings/ergo-lib-c/src/lib.rs:93-101`. -/
def errorToString (E : Env) (p : Ptr) : Run Ptr := fun m =>
  match p with
  | none => newCString E "success".toList m
  | some a =>
    match FMap.get m.heap a with
    | some (.error e) => newCString E (errText e) m
    | _ => .ub

/-- `ergo_lib_delete_error`, `bindings/ergo-lib-c/src/lib.rs:85-90`. -/
def deleteError (p : Ptr) : Run Unit :=
  match p with
  | none => pure ()
  | some a => free (fun o => match o with | .error _ => true | _ => false) a

/-- `ergo_lib_delete_string`, `bindings/ergo-lib-c/src/lib.rs:77-82`. -/
def deleteString (p : Ptr) : Run Unit :=
  match p with
  | none => pure ()
  | some a => free (fun o => match o with | .cstr _ => true | _ => false) a

/-- The function with C linkage: a result without error type is unwrapped, the others become error pointers,
`bindings/ergo-lib-c/src/macros.rs:65-134`, `byte_array.rs:13-24`, `token.rs:15-138`, `ergo_box.rs:42-128`, `secret_key.rs:8-48`, `lib.rs:77-101`. -/
def exec (E : Env) : Call → Run CRet
  | .collNew k out => do (collectionNew E k out).unwrap; pure .unit
  | .collDelete k p => do collectionDelete k p; pure .unit
  | .collLen k p => do let n ← (collectionLen k p).unwrap; pure (.num n)
  | .collGet k p i out => fun m =>
    match collectionGet E k p i out m with
    | .done (.ok b) m' => .done (.ok (.option b none)) m'
    | .done (.error e) m' => (do let q ← cApiFrom E (Run.fail e); pure (.option false q) : Run CRet) m'
    | .panic => .panic
    | .ub => .ub
  | .collAdd k elem p => do (collectionAdd k p elem).unwrap; pure .unit
  | .eq k p q => do let b ← derefEq k p q; pure (.bool b)
  | .delete k p => do deletePtr k p; pure .unit
  | .byteArrayFromRawParts p len out => do let q ← cApiFrom E (byteArrayFromRawParts E p len out); pure (.errPtr q)
  | .boxIdFromStr s out => do let t ← cStr s; let q ← cApiFrom E (boxIdFromStr E t out); pure (.errPtr q)
  | .boxIdToStr p out => do strOut E (idToStr .boxId "box_id_ptr" p) out; pure .unit
  | .boxIdToBytes p output => do (valToBytes .boxId "box_id_ptr" p output).unwrap; pure .unit
  | .boxValueFromI64 n out => do let q ← cApiFrom E (boxValueFromI64 E n out); pure (.errPtr q)
  | .boxValueAsI64 p => do let n ← (amountAsI64 .boxValue "box_value_ptr" p).unwrap; pure (.num n)
  | .boxValueSumOf p q out => do let e ← cApiFrom E (boxValueSumOf E p q out); pure (.errPtr e)
  | .tokenIdFromBoxId p out => do (tokenIdFromBoxId E p out).unwrap; pure .unit
  | .tokenIdFromStr s out => do let t ← cStr s; let q ← cApiFrom E (tokenIdFromStr E t out); pure (.errPtr q)
  | .tokenIdToStr p out => do strOut E (idToStr .tokenId "token_id_ptr" p) out; pure .unit
  | .tokenAmountFromI64 n out => do let q ← cApiFrom E (tokenAmountFromI64 E n out); pure (.errPtr q)
  | .tokenAmountAsI64 p => do let n ← (amountAsI64 .tokenAmount "token_amount_ptr" p).unwrap; pure (.num n)
  | .tokenNew id n out => do (tokenNew E id n out).unwrap; pure .unit
  | .tokenGetId p out => do (tokenGetId E p out).unwrap; pure .unit
  | .tokenGetAmount p out => do (tokenGetAmount E p out).unwrap; pure .unit
  | .secretKeyFromBytes p out => do let q ← cApiFrom E (secretKeyFromBytes E p out); pure (.errPtr q)
  | .secretKeyGenerateRandom w out => do (secretKeyGenerateRandom E w out).unwrap; pure .unit
  | .secretKeyToBytes p output => do (valToBytes .secretKey "secret_key_ptr" p output).unwrap; pure .unit
  | .errorToString p => do let s ← errorToString E p; pure (.str s)
  | .deleteError p => do deleteError p; pure .unit
  | .deleteString p => do deleteString p; pure .unit

/-- A program of the caller: calls one after the other, of functions as those of
`bindings/ergo-lib-c/src/macros.rs:65-134`. -/
def runCalls (E : Env) : List Call → Run Unit
  | [] => pure ()
  | c :: cs => do
    let _ ← exec E c
    runCalls E cs

/-! ## Collections of C strings -/

/-- `CString::from_raw` and drop for each of the pointers, `bindings/ergo-lib-c-core/src/rest/c_string_collection.rs:46-49`. -/
def freeStrings : List Addr → Run Unit
  | [] => pure ()
  | a :: as => do
    free (fun o => match o with | .cstr _ => true | _ => false) a
    freeStrings as

/-- `delete_c_string_collection`, `bindings/ergo-lib-c-core/src/rest/c_string_collection.rs:41-50`.  The vector and its strings are freed, the
`CStringCollection` at `ptr` is not. -/
def deleteCStrings (p : Ptr) : Run Unit := fun m =>
  match p with
  | none => .panic
  | some a =>
    match FMap.get m.heap a with
    | some (.strColl vec len) =>
      match FMap.get m.heap vec with
      | some (.strVec ps) =>
        if ps.length = len then
          (do free (fun o => match o with | .strVec _ => true | _ => false) vec; freeStrings ps : Run Unit) m
        else .ub
      | _ => .ub
    | _ => .ub

end CApi
end Verif
