import Verif.Props.Vlq
import Verif.Props.Value
import Verif.Props.BoxSelector
import Verif.Props.TxBuilder
import Verif.Props.SigmaBoolean
import Verif.Props.Merkle
import Verif.Props.Gf
import Verif.Props.SigmaProtocol
import Verif.Props.SType
import Verif.Props.Constant
import Verif.Props.Unify
import Verif.Props.Register
import Verif.Props.Transaction
import Verif.Props.ErgoTree
import Verif.Props.Nested
import Verif.Props.Header
import Verif.Props.HeaderScript
import Verif.Props.Arith
import Verif.Props.Coll
import Verif.Props.Scope
import Verif.Props.Autolykos
import Verif.Props.Interlinks
import Verif.Props.Nipopow
import Verif.Props.NipopowCodec
import Verif.Props.DerivationPath
import Verif.Props.ExtKey
import Verif.Props.Address
import Verif.Props.AddressScript
import Verif.Props.Peer
import Verif.Props.MultiSig
import Verif.Props.Signing
import Verif.Props.Printer
import Verif.Model.Methods
import Verif.Spec.Typing
import Verif.Proofs.EvalTidy
import Verif.Proofs.TypingValue
import Verif.Proofs.TypingOps
import Verif.Proofs.Typing
import Verif.Props.Typing
import Verif.Spec.Denotation
import Verif.Proofs.Denotation
import Verif.Props.Denotation
import Verif.Spec.Subst
import Verif.Proofs.Subst
import Verif.Props.Subst
import Verif.Props.Reader
import Verif.Props.Ops
import Verif.Props.Access
import Verif.Model.Json
import Verif.Spec.Json
import Verif.Proofs.Json
import Verif.Proofs.JsonTx
import Verif.Props.JsonBox
import Verif.Props.JsonTx
import Verif.Model.JsonHint
import Verif.Spec.JsonHint
import Verif.Proofs.JsonHint
import Verif.Proofs.JsonProver
import Verif.Proofs.JsonHintRead
import Verif.Props.JsonHint
import Verif.Spec.JointTx
import Verif.Proofs.JointTx
import Verif.Props.JointTx
import Verif.Model.WordLists
import Verif.Model.Mnemonic
import Verif.Spec.Mnemonic
import Verif.Proofs.WordLists
import Verif.Proofs.Mnemonic
import Verif.Props.Mnemonic
import Verif.Model.SecretKey
import Verif.Props.SecretKey
import Verif.Model.RustConst
import Verif.Spec.RustConst
import Verif.Proofs.RustConst
import Verif.Props.RustConst
import Verif.Model.TimerHeap
import Verif.Spec.TimerHeap
import Verif.Proofs.TimerHeap
import Verif.Proofs.TimerHeapMore
import Verif.Props.TimerHeap
import Verif.Model.Timer
import Verif.Spec.Timer
import Verif.Proofs.Timer
import Verif.Proofs.TimerMore
import Verif.Props.Timer
import Verif.Model.ScriptLexer
import Verif.Model.ScriptParser
import Verif.Model.ScriptCompiler
import Verif.Spec.Script
import Verif.Spec.ScriptMeaning
import Verif.Proofs.ScriptEvents
import Verif.Proofs.ScriptDirect
import Verif.Proofs.ScriptLex
import Verif.Proofs.ScriptGrammar
import Verif.Proofs.ScriptLower
import Verif.Proofs.ScriptCompile
import Verif.Proofs.ScriptErrors
import Verif.Proofs.ScriptCost
import Verif.Proofs.ScriptMean
import Verif.Props.Script
import Verif.Props.ScriptCompile
import Verif.Model.JsonChain
import Verif.Spec.JsonChain
import Verif.Proofs.JsonChain
import Verif.Props.JsonHeader
import Verif.Props.JsonProofs
import Verif.Model.Discovery
import Verif.Spec.Discovery
import Verif.Proofs.Discovery
import Verif.Props.Discovery
import Verif.Spec.JointSign
import Verif.Proofs.JointSign
import Verif.Proofs.JointSignRun
import Verif.Props.JointSign
import Verif.Model.NodeResp
import Verif.Spec.NodeResp
import Verif.Proofs.NodeResp
import Verif.Props.NodeResp
import Verif.Model.Chrome
import Verif.Spec.Chrome
import Verif.Proofs.Chrome
import Verif.Proofs.ChromeRun
import Verif.Proofs.ChromeEnd
import Verif.Proofs.ChromeFirst
import Verif.Proofs.ChromeTime
import Verif.Props.Chrome
import Verif.Model.BoxBuilder
import Verif.Spec.BoxBuilder
import Verif.Proofs.BoxBuilder
import Verif.Props.BoxBuilder
import Verif.Model.VerifyApi
import Verif.Props.VerifyApi
import Verif.Model.ScalarInt
import Verif.Props.ScalarInt
import Verif.Model.Timeout
import Verif.Proofs.Timeout
import Verif.Props.Timeout
import Verif.Model.JsConv
import Verif.Spec.JsConv
import Verif.Proofs.JsConv
import Verif.Props.JsConv
import Verif.Model.Http
import Verif.Spec.Http
import Verif.Proofs.Http
import Verif.Props.Http
import Verif.Spec.NodeReq
import Verif.Proofs.NodeReq
import Verif.Props.NodeReq
import Verif.Model.WasmTime
import Verif.Proofs.WasmTime
import Verif.Props.WasmTime
import Verif.Model.ChainGen
import Verif.Spec.ChainGen
import Verif.Proofs.ChainGen
import Verif.Props.ChainGen
import Verif.Model.TxSize
import Verif.Spec.TxSize
import Verif.Proofs.TxSize
import Verif.Props.TxSize
import Verif.Model.Wallet
import Verif.Proofs.Wallet
import Verif.Props.Wallet
import Verif.Model.HttpAnswer
import Verif.Spec.HttpAnswer
import Verif.Proofs.HttpAnswer
import Verif.Props.HttpAnswer
import Verif.Props.Limits
import Verif.Model.CApi
import Verif.Spec.CApi
import Verif.Proofs.CApi
import Verif.Proofs.CApiRun
import Verif.Proofs.CApiNull
import Verif.Props.CApi
import Verif.Model.Requests
import Verif.Spec.Requests
import Verif.Proofs.Requests
import Verif.Props.Requests
import Verif.Spec.JsonForm
import Verif.Proofs.JsonForm
import Verif.Proofs.JsonFormTx
import Verif.Proofs.JsonFormChain
import Verif.Props.JsonForm
import Verif.Model.Eip12
import Verif.Proofs.Eip12
import Verif.Props.Eip12
import Verif.Spec.Wire
import Verif.Spec.WireChain
import Verif.Proofs.WireNum
import Verif.Proofs.Wire
import Verif.Proofs.WireExpr
import Verif.Proofs.WireChain
import Verif.Props.Wire
import Verif.Model.WasmNum
import Verif.Spec.WasmNum
import Verif.Proofs.WasmNum
import Verif.Props.WasmNum
