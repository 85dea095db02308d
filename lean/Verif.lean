import Verif.Model.Basic
import Verif.Model.Graph
import Verif.Spec.Graph
import Verif.Lemmas.Order
import Verif.Lemmas.Graph
import Verif.Lemmas.Refs
import Verif.Props.Graph
import Verif.Model.Sort
import Verif.Model.Filter
import Verif.Model.Order
import Verif.Model.Aggregation
import Verif.Model.Query
import Verif.Spec.Query
import Verif.Lemmas.Related
import Verif.Props.Related
import Verif.Lemmas.F64
import Verif.Lemmas.Filter
import Verif.Props.Filter
import Verif.Lemmas.Values
import Verif.Lemmas.Aggregation
import Verif.Props.Order
import Verif.Props.Query
import Verif.Props.Aggregation
import Verif.Model.Schema
import Verif.Spec.Schema
import Verif.Props.Schema
import Verif.Model.Names
import Verif.Spec.Names
import Verif.Lemmas.Names
import Verif.Props.Names
import Verif.Model.Text
import Verif.Model.Calendar
import Verif.Model.Literals
import Verif.Model.Generate
import Verif.Model.Dsl
import Verif.Model.Workspace
import Verif.Spec.Workspace
import Verif.Spec.Literals
import Verif.Lemmas.Workspace
import Verif.Lemmas.Text
import Verif.Lemmas.Calendar
import Verif.Lemmas.Strings
import Verif.Props.Workspace
import Verif.Props.Literals
import Verif.Props.Strings
import Verif.Props.RoundTrip
import Verif.Model.Disk
import Verif.Model.Mcp
import Verif.Spec.Disk
import Verif.Lemmas.Disk
import Verif.Lemmas.Load
import Verif.Lemmas.Mcp
import Verif.Props.Mcp
import Verif.Props.Tools
import Verif.Props.Cli
import Verif.Props.QueryText
import Verif.Props.QueryLiterals
import Verif.Props.QueryFields
import Verif.Props.Trees
import Verif.Model.Reading
import Verif.Props.Reading
import Verif.Props.Replies
import Verif.Lemmas.Paths
import Verif.Props.Paths
import Verif.Props.Adding
import Verif.Props.Moments
import Verif.Props.Command
import Verif.Props.Served
import Verif.Spec.Meaning
import Verif.Props.Meaning
import Verif.Props.Agreement
import Verif.Props.Saved
import Verif.Props.Floats
import Verif.Model.Prompt
import Verif.Props.Prompt
import Verif.Props.Prompted
import Verif.Model.Init
import Verif.Props.Defaults
import Verif.Props.Init
import Verif.Props.NewWorkspace
import Verif.Model.Printed
import Verif.Props.Printed
import Verif.Model.Main
import Verif.Model.Concurrent
import Verif.Lemmas.Main
import Verif.Props.Main
import Verif.Props.Sessions
import Verif.Props.Shown
import Verif.Props.NearFloats
import Verif.Props.Declared
import Verif.Lemmas.Steady
import Verif.Props.Concurrent
import Verif.Spec.Sources
import Verif.Props.Sources
import Verif.Model.Dates
import Verif.Lemmas.Dates
import Verif.Spec.Dates
import Verif.Props.Dates
import Verif.Model.Links
import Verif.Model.Listing
import Verif.Spec.Links
import Verif.Lemmas.Links
import Verif.Lemmas.LinkTools
import Verif.Lemmas.LinkLoad
import Verif.Props.Links
import Verif.Model.Suggest
import Verif.Props.Suggest
import Verif.Props.SmallFloats
import Verif.Model.Refusal
import Verif.Props.Refusal
import Verif.Model.Interrupted
import Verif.Props.Interrupted
import Verif.Props.Quoted
import Verif.Props.Deep
import Verif.Model.AddLine
import Verif.Props.AddLine
import Verif.Model.Stopped
import Verif.Props.Stopped
import Verif.Props.TwoWays
import Verif.Props.Crash
import Verif.Props.QueryCrash
import Verif.Model.Lost
import Verif.Props.Lost
import Verif.Model.InitStopped
import Verif.Props.InitStopped
import Verif.Props.Found
import Verif.Props.Ways
import Verif.Props.Dangling
import Verif.Props.Made
import Verif.Props.Sums
import Verif.Props.Steps
import Verif.Props.Pipeline
import Verif.Props.NearRuns
import Verif.Props.Serial
import Verif.Model.Messages
import Verif.Props.Advice
import Verif.Props.SumAdvice
import Verif.Model.WorkspaceText
import Verif.Props.Causes
import Verif.Props.InitAdvice
import Verif.Props.Typed
import Verif.Props.EnumAsked
import Verif.Props.Opposite
import Verif.Props.Requested
import Verif.Props.Grow
import Verif.Model.Counted
import Verif.Props.Counted
import Verif.Props.Moved
import Verif.Props.Changed
import Verif.Model.Said
import Verif.Model.Manual
import Verif.Props.Said
import Verif.Props.Documented
import Verif.Props.Undone
import Verif.Props.UndoneAll
import Verif.Props.Evolved
import Verif.Props.DaysCounted
import Verif.Props.SortKeys
import Verif.Props.NewNames
import Verif.Props.Accepted
import Verif.Props.Laws
import Verif.Props.Asked
import Verif.Props.Example
import Verif.Props.Unlinked
import Verif.Props.AddAsked
import Verif.Props.LinkAdd
import Verif.Props.Forged
import Verif.Props.Named
import Verif.Props.Manual
import Verif.Props.Listed
import Verif.Props.Listing
import Verif.Props.Parts
import Verif.Props.Medians
import Verif.Props.ReadBack
import Verif.Conformance.Basic
import Verif.Conformance.Filters
import Verif.Conformance.Orders
import Verif.Conformance.Texts
import Verif.Conformance.Graphs
import Verif.Conformance.Queries
import Verif.Conformance.Sources
import Verif.Conformance.Tools
import Verif.Conformance.Changes
