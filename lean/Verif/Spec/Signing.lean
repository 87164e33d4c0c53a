import Verif.Model.Signing
import Verif.Spec.Box
import Verif.Spec.SigmaProtocol

/-!
# What signing a transaction is meant to give
-/

namespace Verif.Spec
open Verif Verif.Sigma

section
variable {G B T : Type}

/-- What an unsigned transaction asks for; compare `essence`. -/
def unsignedEssence (u : UnsignedTransaction G B T) :
    List (Bytes × Extension G B) × Option (List Bytes) × List (BoxCand G B T) :=
  (u.inputs.map fun i => (i.boxId, i.extension), u.dataInputs, u.cands)

/-- The context in which the script of input `i` is to be evaluated: SELF is a given box with the id of input `i` and
stands at place `i` of INPUTS, INPUTS and the data inputs are given boxes with the ids of the transaction in order, OUTPUTS
are its outputs, the variables are those of input `i`, and the block data is that of the state. -/
structure ContextOf (S : StateCtx G) (what : List (Bytes × Extension G B) × Option (List Bytes) × List (BoxCand G B T))
    (outs boxes dataBoxes : List (EBox G B T)) (i : Nat) (ctx : ScriptCtx G B T) : Prop where
  height : ctx.height = S.preHeader.height
  preHeader : ctx.preHeader = S.preHeader
  headers : ctx.headers = S.headers
  self : what.1[i]? = some (ctx.selfBox.boxId, ctx.extension)
  selfAt : ctx.inputs[i]? = some ctx.selfBox
  inputs : ctx.inputs.map (·.boxId) = what.1.map Prod.fst
  given : ∀ b ∈ ctx.inputs, b ∈ boxes
  dataInputs : ctx.dataInputs.map (List.map (·.boxId)) = what.2.1
  dataGiven : ∀ l, ctx.dataInputs = some l → ∀ b ∈ l, b ∈ dataBoxes
  outputs : ctx.outputs = outs

/-- A proposition the holder of the secrets can prove, inside the bounds within which `C21_accepted_partial` speaks. -/
def Provable {q : Nat} [AddCommGroup G] [Module (ZMod q) G] [DecidableEq G] (gen : G) (secrets : List (Secret G q))
    (sb : SigmaBoolean G) : Prop :=
  sb = .trivial true ∨
    (NoTrivial sb ∧ sb.Bounded ∧ ThrOk sb ∧ OrDistinct sb ∧ holds (provableWith gen secrets) sb = true)

/-- A proposition the holder of the secrets cannot prove. -/
def Unprovable {q : Nat} [AddCommGroup G] [Module (ZMod q) G] [DecidableEq G] (gen : G) (secrets : List (Secret G q))
    (sb : SigmaBoolean G) : Prop :=
  sb = .trivial false ∨ (NoTrivial sb ∧ holds (provableWith gen secrets) sb = false)

end
end Verif.Spec
