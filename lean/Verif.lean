import Verif.Model.Basic
import Verif.Model.Primitives
import Verif.Model.Format
import Verif.Model.RuntimeArgs
import Verif.Model.Deploy
import Verif.Model.TxV1
import Verif.Model.MessageWasm
import Verif.Model.Device
import Verif.Spec.Blake2b
import Verif.Spec.Bytesrepr
import Verif.Spec.Seen
import Verif.Spec.Shown
import Verif.Spec.Pages
import Verif.Spec.Whole
import Verif.Lib.Unique
import Verif.Spec.Text
import Verif.Lib.Monad
import Verif.Lib.At
import Verif.Lib.Types
import Verif.Lib.Safe
import Verif.Lib.Args
import Verif.Lib.Text
import Verif.Lib.Sample
import Verif.Props.Wire
import Verif.Props.Text
import Verif.Lib.Device
import Verif.Props.Complete
import Verif.Props.Seen
import Verif.Props.Whole
import Verif.Props.Separate
import Verif.Props.Shown
import Verif.Props.Pages
import Verif.Props.Session
import Verif.Props.Upload
import Verif.Lib.Parse
import Verif.Lib.Walk
import Verif.Lib.NZ
import Verif.Lib.NF
import Verif.Props.Review
import Verif.Props.Incomplete
import Verif.Props.Keys
import Verif.Lib.Accept
import Verif.Lib.Post
import Verif.Lib.V1
import Verif.Spec.V1
import Verif.Lib.Signed
import Verif.Lib.SampleV1
import Verif.Props.Hash
import Verif.Lib.V1Fwd
import Verif.Spec.Value
import Verif.Lib.Show
import Verif.Lib.EndToEnd
import Verif.Spec.Screens
import Verif.Lib.V1Show
import Verif.Props.Operations
import Verif.Lib.V1Only
import Verif.Lib.V1Review
import Verif.Props.Limits
import Verif.Props.Items
import Verif.Props.Prices
import Verif.Props.Render
import Verif.Lib.V1Call
import Verif.Props.Binding
import Verif.Props.Calls
import Verif.Props.Counts
import Verif.Lib.Bound
import Verif.Lib.DeployFacts
import Verif.Spec.Deploy
import Verif.Lib.DeployFwd
import Verif.Lib.DeployInv
import Verif.Lib.DeployAccept
import Verif.Lib.DeployFault
import Verif.Lib.SampleDeploy
import Verif.Props.Deploys
import Verif.Lib.DeployShow
import Verif.Lib.DeploySession
import Verif.Lib.DeployReview
import Verif.Props.Transfers
import Verif.Lib.Content
import Verif.Props.Messages
import Verif.Lib.Wasm
import Verif.Props.Wasm
import Verif.Props.WasmCut
import Verif.Props.Payment
import Verif.Props.Values
import Verif.Props.Effort
import Verif.Lib.Hazard
import Verif.Lib.HazardDeploy
import Verif.Lib.HazardItem
import Verif.Lib.HazardArgs
import Verif.Props.Render
import Verif.Lib.HazardV1
import Verif.Props.RenderV1
import Verif.Spec.BadType
import Verif.Lib.Canon
import Verif.Lib.CanonArgs
import Verif.Lib.Named
import Verif.Spec.Lines
import Verif.Props.Arguments
import Verif.Props.Contracts
import Verif.Props.Canonical
import Verif.Model.Crypto
import Verif.Spec.Keys
import Verif.Props.Crypto
import Verif.Props.Code
import Verif.Props.Headers
import Verif.Lib.Grow
import Verif.Lib.GrowItems
import Verif.Lib.GrowDeploy
import Verif.Props.Trailing
import Verif.Props.History
import Verif.Lib.ModeAttr
import Verif.Lib.Modes
import Verif.Lib.ModeDeploy
import Verif.Lib.ModeV1
import Verif.Props.Modes
import Verif.Spec.Kinds
import Verif.Props.Kinds
import Verif.Spec.Schedule
import Verif.Spec.Unknown
import Verif.Props.Schedule
import Verif.Props.Unknown
import Verif.Lib.CodeSession
import Verif.Props.CodeDelegation
import Verif.Lib.Cut
import Verif.Lib.CutArgs
import Verif.Spec.Cut
import Verif.Spec.Loose
import Verif.Lib.Loose
import Verif.Props.CanonicalV1
import Verif.Props.HeadersV1
import Verif.Spec.ContentV1
import Verif.Lib.ContentV1
import Verif.Props.ContentV1
import Verif.Props.DeployCounts
import Verif.Props.SameContent
import Verif.Props.AcceptV1
import Verif.Props.AcceptDeploy
import Verif.Props.AcceptCalls
import Verif.Props.Surplus
import Verif.Props.SeenStake
import Verif.Props.SeenCall
import Verif.Props.ModuleMemory
import Verif.Props.HiddenCode
import Verif.Props.HiddenAuction
import Verif.Props.SeenConverse
import Verif.Props.ArgsHash
import Verif.Props.WasmBypass
import Verif.Props.ClippedCalls
import Verif.Props.ZeroNames
import Verif.Props.CutNames
import Verif.Props.CutCalls
import Verif.Props.CutArguments
import Verif.Props.CutDeploys
import Verif.Props.CutReservations
import Verif.Props.CutTransfers
import Verif.Props.CutAcceptCalls
import Verif.Props.CutCode
import Verif.Props.CutRun
import Verif.Props.CutAuction
import Verif.Props.CutReviews
import Verif.Props.CutLayouts
import Verif.Props.CutAuctionAccept
import Verif.Props.CutAuctionOrder
