import Verif.Props.Hiid
import Verif.Props.Subscriptions
import Verif.Props.WPQueue
import Verif.Props.Dispatcher
import Verif.Props.Events
import Verif.Props.CRef
import Verif.Props.Names
import Verif.Props.BlockSet
import Verif.Props.Timestamp
import Verif.Props.Record
import Verif.Props.DList
import Verif.Props.Serial
import Verif.Props.Packer
import Verif.Props.Boio
import Verif.Props.Message
import Verif.Props.RequestId
import Verif.Props.NodeCache
import Verif.Props.Forest
import Verif.Props.Breakpoint
import Verif.Props.Nursery
import Verif.Props.MTPool
import Verif.Props.Vells
import Verif.Props.VellsReduce
import Verif.Props.Slicer
import Verif.Props.Cells
import Verif.Props.CellsCompare
import Verif.Props.Resolution
import Verif.Props.VellSet
import Verif.Props.Function
import Verif.Props.Polc
import Verif.Props.ParmTable
import Verif.Props.NumArray
import Verif.Props.GatewayWire
import Verif.Props.GatewayRoute
import Verif.Props.Tensor
import Verif.Props.MTQueue
import Verif.Props.VisMux
import Verif.Props.VisNodes
import Verif.Props.Tiling
import Verif.Props.Solver
import Verif.Props.SolveLoop
import Verif.Props.SolveWorkers
import Verif.Props.Composed
import Verif.Props.Parm
import Verif.Props.FlagNodes
import Verif.Props.ReqNodes
import Verif.Props.Condeq
import Verif.Props.MatNodes
import Verif.Props.Riders
import Verif.Props.NodeLock
import Verif.Props.Execute
import Verif.Props.Threads
import Verif.Props.ChildCells
import Verif.Props.AsyncPoll
import Verif.Props.WSum
import Verif.Props.AxisMap
import Verif.Props.GwClient
import Verif.Props.PyConv
import Verif.Props.VTile
import Verif.Props.Config
import Verif.Props.NodeInit
import Verif.Props.Symdeps
import Verif.Props.DVec
import Verif.Props.ModRes
import Verif.Props.Resample
import Verif.Props.Psv
import Verif.Props.Mpi
import Verif.Props.Server
import Verif.Props.MsChan
import Verif.Props.MsSeq
import Verif.Props.EventMux
import Verif.Props.Collect
import Verif.Props.Locate
import Verif.Props.Patch
import Verif.Props.PolcLog
