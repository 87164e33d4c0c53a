import Verif.Model.DerivationPath
import Verif.Model.SigmaTree

/-!
# Extended keys (BIP-32)

Source: `ergo-lib/src/wallet/ext_secret_key.rs`, `ergo-lib/src/wallet/ext_pub_key.rs`, and `DlogProverInput` of
`ergotree-interpreter/src/sigma_protocol/private_input.rs`.  HMAC-SHA512 (`hmac`, `sha2` crates) is the parameter `Mac`; the
curve is `Sigma.Curve` as for the sigma protocols.  Errors carry no payload.
-/

namespace Verif
open Verif.Sigma

/-- `HmacSha512::new_from_slice(key)`, `update(..)`, `finalize()`: any function of the key and the concatenated updates with 64
byte output, `ergo-lib/src/wallet/ext_secret_key.rs:26, 117, 188`. -/
structure Mac where
  run : Bytes → Bytes → Bytes
  len : ∀ k m, (run k m).length = 64

/-- `ExtSecretKey`, `ext_secret_key.rs:28-36`; the secret scalar, the chain code, the path. -/
structure ExtSecretKey (q : Nat) where
  secret : ZMod q
  chainCode : Bytes
  path : DerivationPath

/-- `ExtPubKey`, `ext_pub_key.rs:24-33`. -/
structure ExtPubKey (G : Type) where
  point : G
  chainCode : Bytes
  path : DerivationPath

/-- `DlogProverInput::from_bytes`, `private_input.rs:50-56`: a big-endian number below the group order. -/
def keyOfBytes {q : Nat} (bs : Bytes) : Option (ZMod q) := if Sigma.beNat bs < q then some (Sigma.beNat bs : ZMod q) else none

/-- `u32::to_be_bytes`, `ergo-lib/src/wallet/ext_secret_key.rs:125`. -/
def be4 (b : BitVec 32) : Bytes := [b.extractLsb' 24 8, b.extractLsb' 16 8, b.extractLsb' 8 8, b.extractLsb' 0 8]

section
variable {G : Type} [DecidableEq G] {q : Nat} [AddCommGroup G] [Module (ZMod q) G]

/-- `DlogProverInput::public_image`, `private_input.rs:87-95`. -/
def publicImage (C : Curve G) (w : ZMod q) : G := expo C C.gen w

/-- `ExtSecretKey::new`, `ext_secret_key.rs:62-75`. -/
def ExtSecretKey.new (bytes chain : Bytes) (path : DerivationPath) : Outcome (ExtSecretKey q) :=
  match keyOfBytes bytes with
  | none => .err
  | some w => .ok ⟨w, chain, path⟩

/-- `ExtPubKey::new`, `ext_pub_key.rs:45-56`. -/
def ExtPubKey.new (C : Curve G) (bytes chain : Bytes) (path : DerivationPath) : Outcome (ExtPubKey G) :=
  match getPoint C.codec bytes with
  | none => .err
  | some (p, _) => .ok ⟨p, chain, path⟩

/-- `ExtSecretKey::public_image_bytes`, `ext_secret_key.rs:92-100`. -/
def ExtSecretKey.publicBytes (C : Curve G) (k : ExtSecretKey q) : Bytes := putPoint C.codec (publicImage C k.secret)

/-- `ExtSecretKey::public_key`, `ext_secret_key.rs:102-111`. -/
def ExtSecretKey.publicKey (C : Curve G) (k : ExtSecretKey q) : Outcome (ExtPubKey G) :=
  ExtPubKey.new C (k.publicBytes C) k.chainCode k.path

/-- The 64 bytes computed in `ExtSecretKey::child`, `ext_secret_key.rs:116-125`. -/
def ExtSecretKey.mac (C : Curve G) (H : Mac) (k : ExtSecretKey q) (index : ChildIndex) : Bytes :=
  H.run k.chainCode ((match index with
    | .hardened _ => 0#8 :: scalarBytes k.secret
    | .normal _ => k.publicBytes C) ++ be4 index.toBits)

/-- `ExtSecretKey::child`, `ext_secret_key.rs:114-158`.  The code calls itself with the next index while the derived key is
invalid.  `fuel` counts these calls: a normal index runs through at most 2^32 values before it repeats, so that a recursion
that uses up `fuel = 2^32` never returns (it overflows the stack), written `panic` here. -/
def ExtSecretKey.childLoop (C : Curve G) (m : Mode) (H : Mac) (k : ExtSecretKey q) : Nat → ChildIndex → Outcome (ExtSecretKey q)
  | 0, _ => .panic
  | fuel + 1, index =>
    let bytes := k.mac C H index
    match keyOfBytes (q := q) (bytes.take 32) with
    | some il =>
      let child := il + k.secret
      if child = 0 then do
        let next ← index.next m
        ExtSecretKey.childLoop C m H k fuel next
      else ExtSecretKey.new (scalarBytes child) (bytes.drop 32) (k.path ++ [index])
    | none => do
      let next ← index.next m
      ExtSecretKey.childLoop C m H k fuel next

/-- `ExtSecretKey::child`, `ergo-lib/src/wallet/ext_secret_key.rs:114-158`. -/
def ExtSecretKey.child (C : Curve G) (m : Mode) (H : Mac) (k : ExtSecretKey q) (index : ChildIndex) : Outcome (ExtSecretKey q) :=
  ExtSecretKey.childLoop C m H k (2 ^ 32) index

/-- `iter().try_fold(init, f)`, `ergo-lib/src/wallet/ext_secret_key.rs:175`, `ergo-lib/src/wallet/ext_pub_key.rs:118`. -/
def tryFold {α β : Type} (f : α → β → Outcome α) : α → List β → Outcome α
  | a, [] => .ok a
  | a, b :: bs => do
    let a' ← f a b
    tryFold f a' bs

/-- `ExtSecretKey::derive`, `ext_secret_key.rs:161-179`.  The slice `up_path.0[..depth]` is taken before the lengths are
compared and panics on a shorter path. -/
def ExtSecretKey.derive (C : Curve G) (m : Mode) (H : Mac) (k : ExtSecretKey q) (upPath : DerivationPath) :
    Outcome (ExtSecretKey q) :=
  if upPath.length < k.path.length then .panic
  else if ((upPath.take k.path.length).zip k.path).all (fun ab => decide (ab.1 = ab.2)) then
    tryFold (fun parent i => parent.child C m H i) k (upPath.drop k.path.length)
  else .err

/-- `ExtSecretKey::derive_master`, `ext_secret_key.rs:182-196` with `BITCOIN_SEED`. -/
def ExtSecretKey.deriveMaster (H : Mac) (seed : Bytes) : Outcome (ExtSecretKey q) :=
  let hash := H.run ("Bitcoin seed".toList.map fun c => BitVec.ofNat 8 c.toNat) seed
  ExtSecretKey.new (hash.take 32) (hash.drop 32) []

/-- The 64 bytes computed in `ExtPubKey::child`, `ext_pub_key.rs:81-85`. -/
def ExtPubKey.mac (C : Curve G) (H : Mac) (k : ExtPubKey G) (index : BitVec 32) : Bytes :=
  H.run k.chainCode (putPoint C.codec k.point ++ be4 (ChildIndex.normal index).toBits)

/-- `ExtPubKey::child`, `ext_pub_key.rs:79-108`; `fuel` as for `ExtSecretKey.childLoop`. -/
def ExtPubKey.childLoop (q : Nat) [Module (ZMod q) G] (C : Curve G) (m : Mode) (H : Mac) (k : ExtPubKey G) :
    Nat → BitVec 32 → Outcome (ExtPubKey G)
  | 0, _ => .panic
  | fuel + 1, index =>
    let bytes := k.mac C H index
    match keyOfBytes (q := q) (bytes.take 32) with
    | some il =>
      let child := publicImage C il + k.point
      if child = C.codec.one then do
        let next ← incU32 m index
        ExtPubKey.childLoop q C m H k fuel next
      else .ok ⟨child, bytes.drop 32, k.path ++ [.normal index]⟩
    | none => do
      let next ← incU32 m index
      ExtPubKey.childLoop q C m H k fuel next

/-- `ExtPubKey::child`, `ergo-lib/src/wallet/ext_pub_key.rs:79-108`. -/
def ExtPubKey.child (q : Nat) [Module (ZMod q) G] (C : Curve G) (m : Mode) (H : Mac) (k : ExtPubKey G) (index : BitVec 32) :
    Outcome (ExtPubKey G) := ExtPubKey.childLoop q C m H k (2 ^ 32) index

/-- `ExtPubKey::derive`, `ext_pub_key.rs:111-134`. -/
def ExtPubKey.derive (q : Nat) [Module (ZMod q) G] (C : Curve G) (m : Mode) (H : Mac) (k : ExtPubKey G) (upPath : DerivationPath) :
    Outcome (ExtPubKey G) :=
  if upPath.length < k.path.length then .panic
  else if ((upPath.take k.path.length).zip k.path).all (fun ab => decide (ab.1 = ab.2)) then
    tryFold (fun parent i => match i with
      | .hardened _ => .err
      | .normal j => parent.child q C m H j) k (upPath.drop k.path.length)
  else .err

end

end Verif
