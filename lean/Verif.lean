import Verif.Py.Basic
import Verif.Py.Regex
import Verif.Model.Pointer
import Verif.Proofs.Regex
import Verif.Proofs.Pointer
import Verif.Props.Pointer
import Verif.Props.Query
import Verif.Py.Number
import Verif.Model.Types
import Verif.Spec.Json
import Verif.Proofs.Dict
import Verif.Props.Types
import Verif.Spec.Map
import Verif.Proofs.Types
import Verif.Py.Format
import Verif.Model.Errors
import Verif.Model.Validators
import Verif.Model.Keywords
import Verif.Model.Schema
import Verif.Proofs.Load
import Verif.Spec.Keywords
import Verif.Proofs.Group
import Verif.Proofs.Single
import Verif.Spec.Validate
import Verif.Proofs.Scalars
import Verif.Proofs.Multi
import Verif.Proofs.Applicators
import Verif.Proofs.Families
import Verif.Props.Scalar
import Verif.Props.Applicators
import Verif.Spec.Satisfies
import Verif.Proofs.Satisfies
import Verif.Proofs.Layer
import Verif.Proofs.Layer2
import Verif.Proofs.Layer3
import Verif.Proofs.Layer4
import Verif.Props.Satisfies
import Verif.Model.Vocabulary
import Verif.Spec.WellFormed
import Verif.Props.Schema
import Verif.Py.Unicode
import Verif.Py.Calendar
import Verif.Model.IsoDatetime
import Verif.Spec.Iso
import Verif.Proofs.RegexGroups
import Verif.Proofs.Iso
import Verif.Proofs.Iso2
import Verif.Props.Iso
import Verif.Model.IsoDuration
import Verif.Spec.Duration
import Verif.Proofs.Duration
import Verif.Props.Duration
import Verif.Model.Formats
import Verif.Spec.Formats
import Verif.Proofs.Formats
import Verif.Proofs.Url
import Verif.Props.Formats
import Verif.Proofs.Split
import Verif.Py.Rfc3986
import Verif.Model.Uri
import Verif.Spec.Uri
import Verif.Spec.Dots
import Verif.Proofs.RegexFirst
import Verif.Proofs.UriPath
import Verif.Proofs.Uri
import Verif.Proofs.Uri2
import Verif.Props.Uri
import Verif.Model.Store
import Verif.Props.Store
import Verif.Props.Resolver
import Verif.Props.Paths
import Verif.Props.Messages
import Verif.Proofs.Prog
import Verif.Proofs.Subs
import Verif.Proofs.Order
import Verif.Props.Order
import Verif.Proofs.Ends
import Verif.Props.Terminates
import Verif.Model.Prog
import Verif.Proofs.Mono
import Verif.Model.Lazy
import Verif.Proofs.Lazy
import Verif.Proofs.Heap
import Verif.Props.Memory
import Verif.Model.Objects
import Verif.Proofs.Objects
import Verif.Proofs.LoadPlain
import Verif.Proofs.Later
import Verif.Proofs.Steps
import Verif.Spec.Load
import Verif.Spec.Query
import Verif.Proofs.Query
import Verif.Props.Load
import Verif.Proofs.LoadCore
import Verif.Proofs.LoadStep
import Verif.Proofs.LoadDone
import Verif.Proofs.LoadAt
import Verif.Proofs.LoadRuns
import Verif.Props.Core
import Verif.Spec.Refs
import Verif.Proofs.Refs
import Verif.Proofs.RefEnds
import Verif.Proofs.LocalRef
import Verif.Props.Refs
import Verif.Model.Cache
import Verif.Spec.Cache
import Verif.Proofs.Cache
import Verif.Props.Cache
import Verif.Props.CacheLoads
import Verif.Props.Retry
import Verif.Props.RetryAgain
import Verif.Spec.Bridge
import Verif.Proofs.Bridge
import Verif.Proofs.BridgeLoad
import Verif.Props.Bridge
import Verif.Spec.Unfold
import Verif.Proofs.Strict
import Verif.Proofs.Unfold
import Verif.Props.Unfold
import Verif.Proofs.Ipv6
import Verif.Props.Ipv6
import Verif.Spec.Linked
import Verif.Proofs.Sub
import Verif.Proofs.Linked
import Verif.Proofs.OpsMono
import Verif.Props.Linked
import Verif.Spec.Placed
import Verif.Proofs.Placed
import Verif.Props.Placed
import Verif.Model.Whole
import Verif.Proofs.Whole
import Verif.Props.Whole
import Verif.Props.WholeNot
import Verif.Model.FormatTexts
import Verif.Spec.FormatTexts
import Verif.Props.FormatTexts
import Verif.Model.Edit
import Verif.Spec.Edit
import Verif.Proofs.Edit
import Verif.Proofs.EditShows
import Verif.Props.Edit
import Verif.Model.Repr
import Verif.Spec.Repr
import Verif.Proofs.Decimal
import Verif.Proofs.Repr
import Verif.Props.Ident
import Verif.Model.Arith
import Verif.Spec.Arith
import Verif.Proofs.Arith
import Verif.Props.Arith
import Verif.Model.Compare
import Verif.Spec.Compare
import Verif.Proofs.Compare
import Verif.Props.Compare
import Verif.Model.PointerSeq
import Verif.Spec.Slice
import Verif.Props.PointerSeq
import Verif.Model.Files
import Verif.Spec.Files
import Verif.Props.Files
import Verif.Proofs.EnumAll
import Verif.Props.Enum
import Verif.Model.References
import Verif.Spec.References
import Verif.Props.References
import Verif.Check.Suite
import Verif.Check.Texts
import Verif.Check.Objects
import Verif.Props.ByRef
import Verif.Props.ByRefText
import Verif.Spec.Malformed
import Verif.Proofs.Parse
import Verif.Props.Parse
import Verif.Model.ParseErrors
import Verif.Props.ParseErrors
import Verif.Spec.OtherTypes
import Verif.Props.OtherTypes
import Verif.Spec.FormatExact
import Verif.Props.FormatExact
import Verif.Props.FormatFault
import Verif.Spec.BadRegex
import Verif.Spec.Equality
import Verif.Proofs.BadRegex
import Verif.Props.BadRegex
import Verif.Props.Equality
import Verif.Spec.Embedded
import Verif.Proofs.Embedded
import Verif.Proofs.EmbeddedLoad
import Verif.Proofs.EmbeddedRoot
import Verif.Proofs.EmbeddedAgain
import Verif.Proofs.EmbeddedRead
import Verif.Props.Embedded
import Verif.Spec.Web
import Verif.Proofs.Web
import Verif.Proofs.WebRef
import Verif.Proofs.WebLoad
import Verif.Proofs.WebRoot
import Verif.Props.Web
import Verif.Props.WebChain
import Verif.Proofs.OnDemand
import Verif.Props.OnDemand
import Verif.Model.Updates
import Verif.Model.Validating
import Verif.Proofs.Validating
import Verif.Proofs.ValidatingMono
import Verif.Proofs.ValidatingNeed
import Verif.Proofs.ValidatingTree
import Verif.Props.Validating
import Verif.Model.Remembering
import Verif.Spec.Remembering
import Verif.Proofs.Remembering
import Verif.Proofs.RememberingNeed
import Verif.Proofs.RememberingTree
import Verif.Props.Remembering
import Verif.Spec.Reordered
import Verif.Proofs.Reordered
import Verif.Props.Reordered
import Verif.Spec.Complaint
import Verif.Proofs.Complaint
import Verif.Proofs.Says
import Verif.Props.Complaint
import Verif.Spec.Shuffled
import Verif.Proofs.Shuffled
import Verif.Props.Shuffled
import Verif.Model.ErrorText
import Verif.Spec.Wording
import Verif.Props.Wording
import Verif.Py.Binary64
import Verif.Spec.Binary64
import Verif.Proofs.Binary64
import Verif.Model.Microseconds
import Verif.Proofs.Microseconds
import Verif.Proofs.MicrosecondsText
import Verif.Props.Microseconds
import Verif.Model.Floats
import Verif.Proofs.Floats
import Verif.Props.Floats
import Verif.Props.NotSchemas
import Verif.Props.JsonText
import Verif.Props.JsonString
import Verif.Props.UriParts
import Verif.Model.Mapping
import Verif.Spec.Mapping
import Verif.Props.Mapping
import Verif.Check.Meets
import Verif.Props.Exact
import Verif.Props.ExactDocs
import Verif.Props.ExactTimes
import Verif.Props.ExactUris
