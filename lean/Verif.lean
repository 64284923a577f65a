import Verif.Props.Range
import Verif.Props.Logic
import Verif.Props.Array
import Verif.Props.LogicArray
import Verif.Props.LogicArrayBytes
import Verif.Props.LogicArrayIndex
import Verif.Props.Format
import Verif.Props.LogicArrayHist
import Verif.Props.SimTime
import Verif.Props.Clock
import Verif.Props.SchedTask
import Verif.Props.SchedDone
import Verif.Props.SchedSync
import Verif.Props.SchedCurrent
import Verif.Props.EventLoop
import Verif.Props.Queue
import Verif.Props.QueueWake
import Verif.Props.Wait
import Verif.Props.TaskManager
import Verif.Props.Handle
import Verif.Props.HandleValue
import Verif.Props.Hierarchy
import Verif.Props.Regression
import Verif.Props.TestManager
import Verif.Props.Decorators
import Verif.Props.XUnit
import Verif.Props.Env
import Verif.Props.Shutdown
import Verif.Props.Extended
import Verif.Props.Bridge
import Verif.Props.GpiCb
import Verif.Props.Runner
import Verif.Props.Gpi
import Verif.Props.Pytest
import Verif.Props.PytestId
import Verif.Props.Log
import Verif.Props.Life
import Verif.Props.SimValue
import Verif.Props.Vhpi
import Verif.Props.VhdlTypes
import Verif.Props.VhdlNames
import Verif.Props.Const
import Verif.Props.Verilator
import Verif.Props.Versions
import Verif.Props.ClockLife
import Verif.Props.Shlex
import Verif.Props.RunCmd
import Verif.Props.RunTest
import Verif.Props.Waves
import Verif.Props.PytestOpt
import Verif.Props.PytestHdl
import Verif.Props.PytestDir
import Verif.Props.BuildArgs
import Verif.Props.NumTime
import Verif.Props.FliCb
import Verif.Props.GpiTime
import Verif.Props.Make
import Verif.Props.MakeHist
import Verif.Props.Summary
import Verif.Props.GpiArray
import Verif.Props.Libs
import Verif.Props.Embed
import Verif.Props.NativeEnv
import Verif.Props.PytestDeco
import Verif.Props.PytestFix
import Verif.Props.Discover
import Verif.Props.TrigObj
import Verif.Props.Combine
import Verif.Props.LADeprecated
import Verif.Props.Repr
import Verif.Props.TaskRepr
import Verif.Props.Recorders
import Verif.Props.Paths
import Verif.Props.FliIter
import Verif.Props.Tracebacks
import Verif.Props.PytestTimes
import Verif.Props.SimInfo
import Verif.Props.ResultPaths
import Verif.Props.MockTop
import Verif.Props.SimChoice
import Verif.Props.RunnerModules
import Verif.Props.LogTime
import Verif.Props.PytestSelect
import Verif.Props.IndexChange
import Verif.Props.TaskName
import Verif.Props.Packages
import Verif.Props.Terminal
import Verif.Props.HdlLang
import Verif.Props.TaskLocals
import Verif.Props.MainFix
