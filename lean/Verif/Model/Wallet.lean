import Verif.Model.Signing
import Verif.Model.ExtKey
import Verif.Model.Address

/-!
# The wallet: its secrets, seeds and messages

Source: `ergo-lib/src/wallet.rs`, `wallet/mnemonic.rs`, `wallet/signing.rs:229-240`,
`bindings/ergo-lib-c-core/src/wallet.rs:260-318`, `bindings/ergo-lib-wasm/src/wallet.rs:177-195`.
-/

namespace Verif
open Verif.Sigma

/-- The functions of other crates behind `Mnemonic::to_seed`, `ergo-lib/src/wallet/mnemonic.rs:24-37`: NFKD normalization
followed by UTF-8 encoding, and PBKDF2 with HMAC-SHA512 (password, salt, iterations, 64 bytes out). -/
structure SeedFns where
  nfkd : List Char → Bytes
  pbkdf2 : Bytes → Bytes → Nat → Bytes

/-- `"mnemonic"` in ASCII, `mnemonic.rs:31`. -/
def saltPrefix : Bytes := [0x6d#8, 0x6e#8, 0x65#8, 0x6d#8, 0x6f#8, 0x6e#8, 0x69#8, 0x63#8]

/-- `PBKDF2_ITERATIONS`, `mnemonic.rs:20`. -/
def pbkdf2Iterations : Nat := 2048

/-- `Mnemonic::to_seed`, `mnemonic.rs:24-37`. -/
def toSeed (F : SeedFns) (phrase pass : List Char) : Bytes :=
  F.pbkdf2 (F.nfkd phrase) (saltPrefix ++ F.nfkd pass) pbkdf2Iterations

section
variable {G : Type} {q : Nat} [DecidableEq G] [AddCommGroup G] [Module (ZMod q) G]

/-- `Wallet::from_secrets`, `wallet.rs:77-84`, with `From<SecretKey> for PrivateInput`, `secret_key.rs:131-138` (both kinds of
secret are `Secret` here); `C` and `rnd` are the group and the random generator. -/
def walletFromSecrets (C : Curve G) (rnd : Nat → Rnd q) (secrets : List (Secret G q)) : WalletP G q :=
  { curve := C, secrets := secrets, rnd := rnd }

/-- `Wallet::add_secret`, `wallet.rs:87-89`, `TestProver::append_secret`, `prover.rs:1203-1205`. -/
def WalletP.addSecret (P : WalletP G q) (s : Secret G q) : WalletP G q := { P with secrets := P.secrets ++ [s] }

/-- `Wallet::from_mnemonic`, `wallet.rs:67-74`; `ExtSecretKey::secret_key`, `ext_secret_key.rs:83-85`. -/
def walletFromMnemonic (C : Curve G) (rnd : Nat → Rnd q) (H : Mac) (F : SeedFns) (phrase pass : List Char) :
    Outcome (WalletP G q) := do
  let k ← ExtSecretKey.deriveMaster (q := q) H (toSeed F phrase pass)
  pure (walletFromSecrets C rnd [.dlog k.secret])

/-- `Wallet::sign_message`, `wallet.rs:149-155`, and `sign_message`, `signing.rs:231-239`; the randomness drawn is
`P.rnd 0`. -/
def WalletP.signMessage (P : WalletP G q) (sb : SigmaBoolean G) (msg : Bytes) : Outcome Bytes :=
  generateProof { curve := P.curve, secrets := P.secrets, hints := [], rnd := P.rnd 0 } sb msg

/-- `wallet_sign_message_using_p2pk`, `ergo-lib-c-core/src/wallet.rs:266-288`; `sign_message_using_p2pk`,
`ergo-lib-wasm/src/wallet.rs:179-195`. -/
def WalletP.signP2pk (P : WalletP G q) (a : Address G) (msg : Bytes) : Outcome Bytes :=
  match a with
  | .p2pk h => P.signMessage (.dlog h) msg
  | _ => .err

/-- `verify_signature`, `ergo-lib-c-core/src/wallet.rs:291-316`, `ergo-lib-wasm/src/verifier.rs:12-28`. -/
def verifyP2pk (q : Nat) [Module (ZMod q) G] (C : Curve G) (a : Address G) (msg sig : Bytes) : Outcome Bool :=
  match a with
  | .p2pk h => verifySignature q C (.dlog h) msg sig
  | _ => .err

end
end Verif
