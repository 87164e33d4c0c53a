import Verif.Model.CApi

/-!
# What a C program may rely on

Written in terms of the calls and of what is behind the pointers, without the functions of the library.
-/

namespace Verif
namespace Spec.CApi
open Verif.CApi

/-- The type of what is behind a pointer. -/
inductive Ty
  | val (k : Kind)
  | coll (k : Kind)
  | error
  | str

/-- The object is of the type. -/
def HasTy : Obj → Ty → Prop
  | .val v, .val k => v.kind = k
  | .coll k' _, .coll k => k' = k
  | .error _, .error => True
  | .cstr _, .str => True
  | _, _ => False

/-- The object is live: it was handed out and not deleted. -/
def Live (m : Mem) (a : Addr) : Prop := FMap.get m.heap a ≠ none

/-- The pointer is the address of a live object of the type. -/
def PointsTo (m : Mem) (t : Ty) (p : Ptr) : Prop := ∃ a o, p = some a ∧ FMap.get m.heap a = some o ∧ HasTy o t

/-- The pointer is the address of a variable of the caller. -/
def IsVar (m : Mem) (p : Ptr) : Prop := ∃ a x, p = some a ∧ FMap.get m.outs a = some x

/-- The pointer is the address of a buffer of at least `n` bytes. -/
def IsBuf (m : Mem) (n : Nat) (p : Ptr) : Prop := ∃ a b, p = some a ∧ FMap.get m.bufs a = some b ∧ n ≤ b.length

/-- An argument of a call that is a pointer: to an object, to a variable for the result; `opt`: null means nothing is to be done. The last
three are arguments for which the interface says nothing about null. -/
inductive Arg
  | obj (t : Ty) (p : Ptr) (name : String)
  | out (p : Ptr) (name : String)
  | opt (t : Ty) (p : Ptr)
  | buf (n : Nat) (p : Ptr)
  | rawOut (p : Ptr)
  | str (s : Option Text)

/-- The pointers among the arguments, with the names the library gives them. -/
def args : Call → List Arg
  | .collNew _ out => [.out out "collection_out"]
  | .collDelete k p => [.opt (.coll k) p]
  | .collLen k p => [.obj (.coll k) p "collection"]
  | .collGet k p _ out => [.obj (.coll k) p "collection", .out out "elem_out"]
  | .collAdd k e p => [.obj (.coll k) p "collection_out", .obj (.val k) e "elem"]
  | .eq k p q => [.obj (.val k) p "x_ptr", .obj (.val k) q "y_ptr"]
  | .delete k p => [.opt (.val k) p]
  | .byteArrayFromRawParts p n out => [.buf n p, .out out "byte_array_out"]
  | .boxIdFromStr s out => [.str s, .out out "box_id_out"]
  | .boxIdToStr p out => [.obj (.val .boxId) p "box_id_ptr", .rawOut out]
  | .boxIdToBytes p b => [.obj (.val .boxId) p "box_id_ptr", .buf 32 b]
  | .boxValueFromI64 _ out => [.out out "box_value_out"]
  | .boxValueAsI64 p => [.obj (.val .boxValue) p "box_value_ptr"]
  | .boxValueSumOf p q out =>
    [.obj (.val .boxValue) p "box_value0_ptr", .obj (.val .boxValue) q "box_value1_ptr", .out out "sum_of_out"]
  | .tokenIdFromBoxId p out => [.obj (.val .boxId) p "box_id_ptr", .out out "token_id_out"]
  | .tokenIdFromStr s out => [.str s, .out out "token_id_out"]
  | .tokenIdToStr p out => [.obj (.val .tokenId) p "token_id_ptr", .rawOut out]
  | .tokenAmountFromI64 _ out => [.out out "token_amount_out"]
  | .tokenAmountAsI64 p => [.obj (.val .tokenAmount) p "token_amount_ptr"]
  | .tokenNew i n out =>
    [.obj (.val .tokenId) i "token_id_ptr", .obj (.val .tokenAmount) n "token_amount_ptr", .out out "token_out"]
  | .tokenGetId p out => [.obj (.val .token) p "token_ptr", .out out "token_id_out"]
  | .tokenGetAmount p out => [.obj (.val .token) p "token_ptr", .out out "token_amount_out"]
  | .secretKeyFromBytes p out => [.buf 32 p, .rawOut out]
  | .secretKeyGenerateRandom _ out => [.rawOut out]
  | .secretKeyToBytes p b => [.obj (.val .secretKey) p "secret_key_ptr", .buf 32 b]
  | .errorToString p => [.opt .error p]
  | .deleteError p => [.opt .error p]
  | .deleteString p => [.opt .str p]

/-- The argument may be given: a pointer of the library is null or to a live object of its type, a variable is null or there. The
arguments without a word about null have to be there. -/
def Arg.Fine (m : Mem) : Arg → Prop
  | .obj t p _ => p = none ∨ PointsTo m t p
  | .out p _ => p = none ∨ IsVar m p
  | .opt t p => p = none ∨ PointsTo m t p
  | .buf n p => IsBuf m n p
  | .rawOut p => IsVar m p
  | .str s => s ≠ none

/-- The name of the argument if it is null and must not be. -/
def Arg.isNull : Arg → Option String
  | .obj _ none n => some n
  | .out none n => some n
  | _ => none

/-- The call deletes the object at `a`. -/
def Frees : Call → Addr → Prop
  | .collDelete _ p, a => p = some a
  | .delete _ p, a => p = some a
  | .deleteError p, a => p = some a
  | .deleteString p, a => p = some a
  | _, _ => False

/-- The call adds to the collection at `a`. -/
def AddsTo : Call → Addr → Prop
  | .collAdd _ _ p, a => p = some a
  | _, _ => False

/-- The functions whose C type has a place for an error. -/
def Reports : Call → Prop
  | .collGet .. => True
  | .byteArrayFromRawParts .. => True
  | .boxIdFromStr .. => True
  | .boxValueFromI64 .. => True
  | .boxValueSumOf .. => True
  | .tokenIdFromStr .. => True
  | .tokenAmountFromI64 .. => True
  | .secretKeyFromBytes .. => True
  | _ => False

/-- The error pointer in a returned value. -/
def errorOf : CRet → Ptr
  | .errPtr p => p
  | .option _ p => p
  | _ => none

/-- The string pointer in a returned value. -/
def stringOf : CRet → Ptr
  | .str p => p
  | _ => none

/-- The base 16 text `s` means the bytes `b`: two digits per byte, the higher one first. -/
def Hex (s : Text) (b : Bytes) : Prop := Json.hexDec s = some b

/-- What the call makes, and the variable of the caller that gets the pointer to it. -/
inductive Makes (E : Env) (m : Mem) : Call → Addr → Obj → Prop
  | collNew (k : Kind) (o : Addr) : Makes E m (.collNew k (some o)) o (.coll k [])
  | collGet {k : Kind} {p : Addr} {i : Nat} (o : Addr) {vs : List Val} {v : Val} (h : FMap.get m.heap p = some (.coll k vs))
      (hi : vs[i]? = some v) : Makes E m (.collGet k (some p) i (some o)) o (.val v)
  | byteArray {p : Addr} {n : Nat} (o : Addr) {b : Bytes} (h : FMap.get m.bufs p = some b) (hn : n ≤ b.length) :
      Makes E m (.byteArrayFromRawParts (some p) n (some o)) o (.val (.byteArray (b.take n)))
  | boxIdFromStr {s : Text} {d : Bytes} (o : Addr) (h : Hex s d) (hd : d.length = 32) :
      Makes E m (.boxIdFromStr (some s) (some o)) o (.val (.boxId d))
  | boxIdToStr {p : Addr} {d : Bytes} (o : Addr) (h : FMap.get m.heap p = some (.val (.boxId d))) :
      Makes E m (.boxIdToStr (some p) (some o)) o (.cstr (Json.hexEnc d))
  | boxValueFromI64 {n : BitVec 64} (o : Addr) (h : 10800 ≤ n.toInt) :
      Makes E m (.boxValueFromI64 n (some o)) o (.val (.boxValue n.toInt.toNat))
  | boxValueSumOf {p q : Addr} {x y : Nat} (o : Addr) (hp : FMap.get m.heap p = some (.val (.boxValue x)))
      (hq : FMap.get m.heap q = some (.val (.boxValue y))) (h : x + y < 2 ^ 63) :
      Makes E m (.boxValueSumOf (some p) (some q) (some o)) o (.val (.boxValue (x + y)))
  | tokenIdFromBoxId {p : Addr} {d : Bytes} (o : Addr) (h : FMap.get m.heap p = some (.val (.boxId d))) :
      Makes E m (.tokenIdFromBoxId (some p) (some o)) o (.val (.tokenId d))
  | tokenIdFromStr {s : Text} {d : Bytes} (o : Addr) (h : Hex s d) (hd : d.length = 32) :
      Makes E m (.tokenIdFromStr (some s) (some o)) o (.val (.tokenId d))
  | tokenIdToStr {p : Addr} {d : Bytes} (o : Addr) (h : FMap.get m.heap p = some (.val (.tokenId d))) :
      Makes E m (.tokenIdToStr (some p) (some o)) o (.cstr (Json.hexEnc d))
  | tokenAmountFromI64 {n : BitVec 64} (o : Addr) (h : 1 ≤ n.toInt) :
      Makes E m (.tokenAmountFromI64 n (some o)) o (.val (.tokenAmount n.toInt.toNat))
  | tokenNew {p q : Addr} {d : Bytes} {n : Nat} (o : Addr) (hp : FMap.get m.heap p = some (.val (.tokenId d)))
      (hq : FMap.get m.heap q = some (.val (.tokenAmount n))) :
      Makes E m (.tokenNew (some p) (some q) (some o)) o (.val (.token d n))
  | tokenGetId {p : Addr} {d : Bytes} {n : Nat} (o : Addr) (h : FMap.get m.heap p = some (.val (.token d n))) :
      Makes E m (.tokenGetId (some p) (some o)) o (.val (.tokenId d))
  | tokenGetAmount {p : Addr} {d : Bytes} {n : Nat} (o : Addr) (h : FMap.get m.heap p = some (.val (.token d n))) :
      Makes E m (.tokenGetAmount (some p) (some o)) o (.val (.tokenAmount n))
  | secretKeyFromBytes {p : Addr} {b : Bytes} (o : Addr) (h : FMap.get m.bufs p = some b) (hn : 32 ≤ b.length)
      (hq : beNat (b.take 32) < E.order) : Makes E m (.secretKeyFromBytes (some p) (some o)) o (.val (.secretKey (b.take 32)))
  | secretKeyGenerateRandom (w : Nat) (o : Addr) :
      Makes E m (.secretKeyGenerateRandom w (some o)) o (.val (.secretKey (natBe 32 (w % E.order))))

/-- Numbers of the range of their types, bytes of the right length: true of all values the library makes. -/
def ValOk : Val → Prop
  | .boxId d => d.length = 32
  | .boxValue n => 10800 ≤ n ∧ n < 2 ^ 63
  | .tokenId d => d.length = 32
  | .tokenAmount n => 1 ≤ n ∧ n < 2 ^ 63
  | .token d n => d.length = 32 ∧ 1 ≤ n ∧ n < 2 ^ 63
  | .secretKey w => w.length = 32
  | .byteArray _ => True

/-- The same for objects; the members of a collection are of its type; error texts have no NUL. -/
def ObjOk : Obj → Prop
  | .val v => ValOk v
  | .coll k vs => ∀ v ∈ vs, v.kind = k ∧ ValOk v
  | .error (.misc w) => Char.ofNat 0 ∉ w.toList
  | .error (.invalidArgument n) => Char.ofNat 0 ∉ n.toList
  | _ => True

/-- Every live object is in order. -/
def MemOk (m : Mem) : Prop := ∀ a o, FMap.get m.heap a = some o → ObjOk o

/-- The pointers added to the collection at `p`, in order. -/
def addedTo (p : Addr) : List Call → List Ptr
  | [] => []
  | .collAdd _ e q :: cs => if q = some p then e :: addedTo p cs else addedTo p cs
  | _ :: cs => addedTo p cs

end Spec.CApi
end Verif
