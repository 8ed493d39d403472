import Verif.Basic
import Verif.User
import Verif.Sys
import Verif.Aggregate
import Verif.Process
import Verif.Integration
import Verif.Projection
import Verif.Engine
import Verif.Spec
import Verif.Steps
import Verif.Lift
import Verif.Seg
import Verif.Sum
import Verif.Core
import Verif.Inv
import Verif.Refine
import Verif.AggLive
import Verif.AggRefine
import Verif.ProcRefine
import Verif.OpLog
import Verif.OpFlat
import Verif.OpTick
import Verif.Fuel
import Verif.Options
import Verif.OpView
import Verif.Demo
import Verif.Props.Identity
import Verif.Props.Aggregate
import Verif.Props.Process
import Verif.Props.Dispatch
import Verif.Props.Enable
import Verif.Props.Emit
import Verif.Flow
import Verif.Props.Flow
import Verif.Props.Order
import Verif.Frame
import Verif.Props.Handling
import Verif.Props.Panic
import Verif.Props.Projection
import Verif.Shift
import Verif.Props.Compact
import Verif.Props.Reset
import Verif.Observer
import Verif.Props.Observer
import Verif.Run
import Verif.Props.Run
import Verif.Ident
import Verif.Props.Ident
import Verif.Compare
import Verif.Props.Compare
import Verif.Inflect
import Verif.Satisfy
import Verif.Expect
import Verif.ExpectSpec
import Verif.ExpectRefine
import Verif.Props.Expect
import Verif.Props.Satisfy
import Verif.Props.Blame
import Verif.TestLog
import Verif.Props.TestLog
import Verif.Props.Impossible
import Verif.Test
import Verif.Props.Test
import Verif.Props.History
import Verif.Protocol
import Verif.Props.Protocol
import Verif.Props.Intercept
import Verif.Props.Inflect
import Verif.Render
import Verif.Props.Render
import Verif.Logger
import Verif.Props.Logger
import Verif.Location
import Verif.Props.Location
import Verif.Concurrent
import Verif.Props.Concurrent
import Verif.Props.Serial
import Verif.EngineConc
import Verif.Rename
import Verif.Retime
import Verif.EngineBlind
import Verif.EngineSolo
import Verif.EngineKeeps
import Verif.Props.EngineSerial
import Verif.Props.Termination
import Verif.Props.Account
import Verif.ExplainSpec
import Verif.ExplainRefine
import Verif.Props.Explain
import Verif.ExecConc
import Verif.Props.ExecConc
import Verif.Props.Instance
import Verif.Props.Scopes
import Verif.Props.Roots
import Verif.Conform.Messages
import Verif.Conform.Log
import Verif.Conform.Trees
import Verif.Conform.Controllers
import Verif.Conform.Engine
import Verif.Conform.Logger
import Verif.UserAction
import Verif.Props.UserAction
import Verif.Props.UserTold
import Verif.Props.UserHist
import Verif.Props.UserFail
import Verif.Build
import Verif.Props.Build
import Verif.InflectText
import Verif.Props.Made
import Verif.Diff
import Verif.Props.Diff
import Verif.Where
import Verif.Props.Where
import Verif.Conform.Texts
import Verif.Props.Heard
import Verif.Props.Finish
import Verif.SatConc
import Verif.Props.SatConc
import Verif.Props.SatAlone
import Verif.Props.ReportTree
import Verif.Props.TickOrder
import Verif.Watched
import Verif.WatchedRefine
import Verif.WatchedGrow
import Verif.Props.Watched
import Verif.Notified
import Verif.Props.Notified
import Verif.NotifyPanic
import Verif.Props.NotifyPanic
import Verif.Late
import Verif.Props.Late
import Verif.Memory
import Verif.Props.Memory
import Verif.Sliced
import Verif.Props.Sliced
import Verif.Goexit
import Verif.Props.Goexit
import Verif.Props.Absent
import Verif.Props.AbsentTest
import Verif.Props.TickTwice
import Verif.Props.AnyTime
import Verif.Props.TestAnyTime
import Verif.Props.Monotone
import Verif.Props.AnyIds
import Verif.Props.Mirror
import Verif.Refit
import Verif.Relabel
import Verif.Props.AnyData
import Verif.Props.AnyNames
import Verif.Reword
import Verif.Props.AnyWords
import Verif.Props.AnyWordsTest
import Verif.Props.AnyIdsTest
import Verif.Props.Asserting
import Verif.Props.Ways
