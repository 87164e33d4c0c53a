import Verif.Model.Http

/-!
# Requests to a node

The paths of the node's REST interface as sequences of segments.
-/

namespace Verif.Spec
open Http

/-- The segments of the path of a request. -/
def segments : NodeReq → List Text
  | .info => ["info".toList]
  | .header id => ["blocks".toList, Json.hexEnc id, "header".toList]
  | .popow m k id => ["nipopow".toList, "proof".toList, decimal m.toNat, decimal k.toNat, Json.hexEnc id]
  | .txProof id tx => ["blocks".toList, Json.hexEnc id, "proofFor".toList, Json.hexEnc tx]

/-- Segments with slashes between them. -/
def slashed : List Text → Text
  | [] => []
  | [s] => s
  | s :: t :: l => s ++ '/' :: slashed (t :: l)

/-- The request makes sense: lengths of a proof are positive. -/
def NodeReqOk : NodeReq → Prop
  | .popow m k _ => m ≠ 0 ∧ k ≠ 0
  | _ => True

/-- The headers a node expects; the key is what the configuration has. -/
def nodeHeaders (key : Text) : List (Text × List Text) :=
  [("accept".toList, ["application/json".toList]), ("api_key".toList, [key]), ("content-type".toList, ["application/json".toList])]

end Verif.Spec
