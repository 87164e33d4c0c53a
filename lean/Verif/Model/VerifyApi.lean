import Verif.Model.Signing
import Verif.Model.ErgoTree

/-!
# Checking a P2PK input without a context

Source: `ergo-lib/src/chain/transaction.rs:191-212`, `ergotree-interpreter/src/eval.rs:190-195`.
-/

namespace Verif
open Sigma
variable {G B T : Type}

/-- `extract_sigma_boolean`, `ergotree-interpreter/src/eval.rs:190-195`; `try_extract_into::<SigmaProp>` looks at the value,
`ergotree-ir/src/mir/constant.rs:683-693`. -/
def extractSigmaBoolean : Expr G B → Outcome (SigmaBoolean G)
  | .const c =>
    match c.v with
    | .sigmaProp sb => .ok sb
    | _ => .err
  | _ => .err

/-- `extract_sigma_boolean(&ergo_tree.proposition()?)`, `ergo-lib/src/chain/transaction.rs:206`. -/
def ETree.constProp [DecidableEq G] (E : Sers G B T) (M : Byte → Byte → Option FuncSig) (t : ETree G B) :
    Outcome (SigmaBoolean G) := do
  let e ← t.proposition E M
  extractSigmaBoolean e

/-- `Transaction::verify_p2pk_input`, `ergo-lib/src/chain/transaction.rs:191-212`; `prop` stands for
`extract_sigma_boolean(&ergo_tree.proposition()?)`.  The bytes to sign are unwrapped. -/
def verifyP2pkInput [DecidableEq G] (q : Nat) [AddCommGroup G] [Module (ZMod q) G] (C : Curve G) (prop : T → Outcome (SigmaBoolean G))
    (E : Sers G B T) (t : Tx G B T) (b : EBox G B T) : Outcome Bool :=
  match t.bytesToSign E with
  | .ok message => do
    let inp ← ofOpt (t.inputs.find? fun x => decide (x.boxId = b.boxId))
    let sb ← prop b.tree
    verifySignature q C sb message inp.proof.proof.toBytes
  | _ => .panic

end Verif
