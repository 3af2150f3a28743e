import Verif.Props.Links
import Verif.Props.Trace
import Verif.Props.Errors
import Verif.Props.Retry
import Verif.Props.Loops
import Verif.Props.Results
import Verif.Props.Run
import Verif.Props.Record
import Verif.Props.Steps
import Verif.Props.Snapshot
import Verif.Props.Serial
import Verif.Props.Subflows
import Verif.Props.Definition
import Verif.Props.Registry
import Verif.Props.Mock
import Verif.Props.Scopes
import Verif.Props.Outputs
import Verif.Props.Support
import Verif.Props.Manager
import Verif.Props.Concurrent
import Verif.Props.SkipOption
import Verif.Props.OnDemand
import Verif.Props.Graph
import Verif.Props.Events
import Verif.Props.Data
import Verif.Props.Cover
import Verif.Props.Accumulate
import Verif.Props.Failure
import Verif.Props.ConcOrder
import Verif.Props.ConcFail
import Verif.Props.ConcLeft
import Verif.Props.ConcPlain
import Verif.Props.ConcTerm
import Verif.Props.Activity
import Verif.Props.Calls
import Verif.Props.Attrs
import Verif.Props.Resolve
import Verif.Props.Inputs
import Verif.Props.Launch
import Verif.Props.Resume
import Verif.Props.Cycle
import Verif.Props.Server
import Verif.Props.Spans
import Verif.Props.Delays
import Verif.Props.Recording
import Verif.Props.Interface
import Verif.Props.Rounds
import Verif.Props.Bound
import Verif.Props.Service
import Verif.Props.ConcRun
import Verif.Props.Returns
import Verif.Props.Verdicts
import Verif.Props.Ends
import Verif.Props.HandlerRun
import Verif.Props.Settings
import Verif.Props.Setup
import Verif.Props.Ahead
import Verif.Props.Determined
import Verif.Props.Context
import Verif.Props.Panics
import Verif.Props.Inspect
import Verif.Props.TaskIds
import Verif.Props.SpanTags
import Verif.Props.ConcDemand
import Verif.Props.ConcRecord
import Verif.Props.Intercept
import Verif.Props.Faithful
import Verif.Props.FaithfulRun
import Verif.Axioms
