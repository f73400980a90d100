import Verif.Meta.Fallback
import Verif.Meta.Visitation
import Verif.Meta.Discriminator
import Verif.Core.World
import Verif.Core.Variant
import Verif.Core.Program
import Verif.Spec.Invariant
import Verif.Lemmas.Wp
import Verif.Lemmas.Visitation
import Verif.Lemmas.Visit
import Verif.Lemmas.Replace
import Verif.Lemmas.Exec
import Verif.Lemmas.Assign
import Verif.Lemmas.Discriminator
import Verif.Lemmas.Fallback
import Verif.Props.Discriminator
import Verif.Props.Fallback
import Verif.Props.Visitation
import Verif.Spec.Program
import Verif.Lemmas.AssignTop
import Verif.Lemmas.Construct
import Verif.Lemmas.Value
import Verif.Lemmas.Content
import Verif.Lemmas.Swap
import Verif.Lemmas.ValueCmd
import Verif.Lemmas.Step
import Verif.Spec.Examples
import Verif.Lemmas.InPlace
import Verif.Lemmas.Provenance
import Verif.Lemmas.Quiet
import Verif.Props.NeverEmpty
import Verif.Props.Construction
import Verif.Props.Assignment
import Verif.Props.Swap
import Verif.Props.ValueAssign
import Verif.Lemmas.ContentRef
import Verif.Props.ContentRef
import Verif.Props.Identity
import Verif.Spec.Outcome
import Verif.Lemmas.NeverOk
import Verif.Lemmas.Hazard
import Verif.Lemmas.Outcome
import Verif.Core.Observe
import Verif.Spec.Order
import Verif.Props.Observe
import Verif.Meta.CvType
import Verif.Core.Get
import Verif.Spec.Get
import Verif.Props.Get
import Verif.Props.Backup
import Verif.Props.FallbackValue
import Verif.Spec.Store
import Verif.Props.Refinement
import Verif.Meta.Layout
import Verif.Props.Layout
import Verif.Core.Mixed
import Verif.Core.Multi
import Verif.Spec.Mixed
import Verif.Spec.Multi
import Verif.Lemmas.Run
import Verif.Lemmas.Frame
import Verif.Lemmas.Multi
import Verif.Props.Mixed
import Verif.Props.Multi
import Verif.Core.Eff
import Verif.Core.Wrapper
import Verif.Spec.Wrapper
import Verif.Lemmas.Wrapper
import Verif.Props.Wrapper
import Verif.Core.Tree
import Verif.Spec.Tree
import Verif.Lemmas.Tree
import Verif.Lemmas.TreeMem
import Verif.Lemmas.TreeOwn
import Verif.Lemmas.TreePlace
import Verif.Lemmas.TreeMove
import Verif.Lemmas.TreeAssign
import Verif.Lemmas.TreeVal
import Verif.Lemmas.TreeSwap
import Verif.Lemmas.TreeDoes
import Verif.Lemmas.TreeExchange
import Verif.Lemmas.TreeStep
import Verif.Lemmas.TreeUnsafe
import Verif.Lemmas.TreeMoveUnsafe
import Verif.Props.Tree
import Verif.Props.TreeParts
import Verif.Props.TreeSwap
import Verif.Core.TreeMembers
import Verif.Spec.TreeMembers
import Verif.Spec.TreeScope
import Verif.Lemmas.TreeMembers
import Verif.Lemmas.TreeMembersRun
import Verif.Lemmas.TreeScope
import Verif.Props.TreeMembers
import Verif.Props.TreeMembersRun
import Verif.Props.TreeScope
import Verif.Meta.Substitute
import Verif.Spec.Substitute
import Verif.Props.Substitute
import Verif.Meta.Initializer
import Verif.Spec.Initializer
import Verif.Props.Initializer
import Verif.Core.Convert
import Verif.Spec.Convert
import Verif.Props.Convert
import Verif.Lemmas.HazardStep
import Verif.Props.Asserted
import Verif.Meta.ResultType
import Verif.Props.ResultType
import Verif.Core.TreeObserve
import Verif.Spec.TreeOrder
import Verif.Lemmas.TreeObserve
import Verif.Props.TreeObserve
import Verif.Core.Reference
import Verif.Spec.Reference
import Verif.Lemmas.Reference
import Verif.Props.Reference
import Verif.Spec.TreeDepth
import Verif.Lemmas.TreeDepth
import Verif.Lemmas.TreeDepthMove
import Verif.Props.TreeDepth
import Verif.Core.MixedConvert
import Verif.Core.Structured
import Verif.Spec.MixedConvert
import Verif.Spec.Structured
import Verif.Lemmas.MixedConvert
import Verif.Lemmas.Structured
import Verif.Props.MixedConvert
import Verif.Props.Scope
import Verif.Props.Guarantees
import Verif.Props.Structured
import Verif.Props.StructuredAsserted
import Verif.Meta.ApplyOverload
import Verif.Props.ApplyOverload
import Verif.Props.Cost
import Verif.Spec.Broken
import Verif.Lemmas.Broken
import Verif.Lemmas.HazardBroken
import Verif.Props.Broken
import Verif.Spec.Plain
import Verif.Lemmas.Plain
import Verif.Props.Plain
import Verif.Meta.CompareOverload
import Verif.Meta.MemberOverload
import Verif.Props.CompareOverload
import Verif.Props.MemberOverload
import Verif.Props.TreeCost
import Verif.Lemmas.CanThrow
import Verif.Props.CanThrow
import Verif.Props.SwapScope
import Verif.Props.SafetyScope
import Verif.Lemmas.Backed
import Verif.Props.CanThrowSame
import Verif.Props.CanThrowValue
import Verif.Spec.Exact
import Verif.Lemmas.Exact
import Verif.Lemmas.ExactOps
import Verif.Lemmas.ExactValue
import Verif.Props.Exact
import Verif.Spec.ExactTree
import Verif.Lemmas.ExactTree
import Verif.Lemmas.ExactTreeStore
import Verif.Lemmas.ExactTreeAssign
import Verif.Lemmas.ExactTreeDoes
import Verif.Lemmas.ExactTreeSwap
import Verif.Lemmas.ExactTreeStep
import Verif.Lemmas.ExactTreeBound
import Verif.Props.ExactTree
import Verif.Core.Control
import Verif.Core.ControlMixed
import Verif.Spec.Control
import Verif.Lemmas.Control
import Verif.Lemmas.ControlKeeps
import Verif.Props.Control
import Verif.Spec.Ordinary
import Verif.Spec.ExactMixed
import Verif.Spec.ControlMixed
import Verif.Lemmas.Ordinary
import Verif.Lemmas.ExactMixed
import Verif.Props.Ordinary
import Verif.Props.ExactMixed
import Verif.Props.ControlMixed
import Verif.Meta.Arithmetic
import Verif.Props.Arithmetic
import Verif.Meta.Pointers
import Verif.Props.Pointers
import Verif.Meta.ClassValues
import Verif.Props.ClassValues
import Verif.Spec.GetExact
import Verif.Props.GetExact
import Verif.Props.ReturnedReference
import Verif.Props.StructuredScope
import Verif.Core.TreeVisit
import Verif.Spec.TreeVisit
import Verif.Lemmas.TreeVisit
import Verif.Props.TreeVisit
import Verif.Props.RepoTests
import Verif.Core.TreeVisitN
import Verif.Spec.TreeVisitN
import Verif.Lemmas.TreeVisitN
import Verif.Lemmas.TreeVisitNSpec
import Verif.Props.TreeVisitN
import Verif.Lemmas.TreeFrame
import Verif.Spec.TreeRefs
import Verif.Props.TreeRefs
import Verif.Spec.StructuredRuns
import Verif.Props.StructuredRuns
import Verif.Meta.InternalVisit
import Verif.Spec.InternalVisit
import Verif.Props.InternalVisit
import Verif.Core.Direct
import Verif.Spec.Direct
import Verif.Props.Direct
import Verif.Core.Threads
import Verif.Spec.Threads
import Verif.Props.Threads
import Verif.Core.ThreadsTree
import Verif.Spec.ThreadsTree
import Verif.Props.ThreadsTree
import Verif.Meta.Params
import Verif.Spec.Params
import Verif.Props.Params
import Verif.Spec.ClassValues
import Verif.Spec.ResultLifetime
import Verif.Props.ResultLifetime
