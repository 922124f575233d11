import Verif.Word
import Verif.MapNat
import Verif.MapTree
import Verif.Mapping64
import Verif.MappingRefine
import Verif.MappingTree64
import Verif.Limits
import Verif.LimitsExact
import Verif.Grid
import Verif.Nbr
import Verif.NbrSix
import Verif.NbrWalk
import Verif.NbrFind
import Verif.NbrTo
import Verif.NbrIs
import Verif.Sample
import Verif.Existing
import Verif.Near
import Verif.Refine
import Verif.Decide
import Verif.FloodGeom
import Verif.Flood
import Verif.Balance
import Verif.Transfer
import Verif.Halo
import Verif.Exec
import Verif.ExecLocal
import Verif.ExecSpec
import Verif.ExecAll
import Verif.Requests
import Verif.Stop
import Verif.RequestsSpec
import Verif.Load
import Verif.LoadSpec
import Verif.Props.Mapping
import Verif.Props.Limits
import Verif.Props.Neighbors
import Verif.Init
import Verif.Hist
import Verif.Progress
import Verif.Rounds
import Verif.History
import Verif.Demo
import Verif.Props.Grid
import Verif.Props.Refine
import Verif.Props.RefineData
import Verif.Props.Requests
import Verif.Books
import Verif.Props.Load
import Verif.Query
import Verif.Copies
import Verif.Props.Halo
import Verif.Props.Select
import Verif.Props.Iter
import Verif.Props.Face
import Verif.Props.Withdraw
import Verif.Geom
import Verif.Axis
import Verif.GeomSpec
import Verif.GeomLocate
import Verif.GeomStretched
import Verif.GeomSet
import Verif.Props.Geometry
import Verif.Props.Locate
import Verif.Props.CenterAt
import Verif.Props.Stretched
import Verif.Props.GeomSet
import Verif.LoadCells
import Verif.LoadLevels
import Verif.Props.LoadCells
import Verif.Collective
import Verif.Props.Collective
import Verif.Bytes
import Verif.Records
import Verif.Props.Records
import Verif.Save
import Verif.Props.Save
import Verif.LoadGrid
import Verif.FileSpec
import Verif.Props.LoadGrid
import Verif.Partitioner
import Verif.Props.Parts
import Verif.Props.Options
import Verif.Props.Partitioner
import Verif.Async
import Verif.Props.Split
import Verif.Props.Copy
import Verif.Alias
import Verif.Props.Alias
import Verif.Phases
import Verif.Props.Phases
import Verif.Lists
import Verif.Props.Lists
import Verif.Props.Cleared
import Verif.Find64
import Verif.Props.Find
import Verif.Props.FindExact
import Verif.Setup
import Verif.Props.Setup
import Verif.Curve
import Verif.Props.Curve
import Verif.Vtk
import Verif.Props.Vtk
import Verif.Nbr64
import Verif.Nbr64Spec
import Verif.Props.Nbr64
import Verif.Stored
import Verif.StoredLists
import Verif.StoredHalo
import Verif.StoredSpec
import Verif.StoredHist
import Verif.Props.Stored
import Verif.LoadBare
import Verif.LoadStored
import Verif.Props.Loaded
import Verif.Double
import Verif.DoubleSpec
import Verif.GeomDouble
import Verif.GeomDoubleExact
import Verif.GeomDoubleGrid
import Verif.GeomDoubleNone
import Verif.GeomDoubleError
import Verif.GeomDoublePeriod
import Verif.GeomDoubleClose
import Verif.Props.DoubleExact
import Verif.Props.DoubleError
import Verif.Debug
import Verif.DebugSpec
import Verif.DebugStore
import Verif.DebugExec
import Verif.DebugLoad
import Verif.Props.Debug
import Verif.Objects
import Verif.ObjectsSpec
import Verif.ObjectsExec
import Verif.ObjectsHist
import Verif.Props.Objects
import Verif.StretchedDouble
import Verif.StretchedDoubleExact
import Verif.StretchedDoubleGrid
import Verif.StretchedDoubleLoop
import Verif.StretchedDoubleClose
import Verif.Props.StretchedExact
import Verif.Props.StretchedError
import Verif.Props.StretchedFrom
import Verif.Props.AtCoordinate
import Verif.Sched
import Verif.SchedOps
import Verif.SchedSpec
import Verif.Props.Schedule
import Verif.Props.Interrupted
import Verif.Datatype
import Verif.Props.Datatype
import Verif.SchedFile
import Verif.SchedStuck
import Verif.Props.ScheduleFile
import Verif.Props.ScheduleFail
import Verif.Alike
import Verif.Recorded
import Verif.Between
import Verif.Props.Between
import Verif.Props.Reached
import Verif.SchedPhases
import Verif.Props.SchedulePhases
import Verif.StoredPhases
import Verif.Props.StoredPhases
import Verif.DebugPhases
import Verif.Props.DebugPhases
import Verif.ObjectsPhases
import Verif.Props.ObjectsPhases
import Verif.Handles
import Verif.HandlesSpec
import Verif.Props.Handles
import Verif.View
import Verif.Props.View
import Verif.Props.Chosen
import Verif.Props.Everything
import Verif.Props.Restarts
import Verif.Props.Solver
import Verif.Props.Checkpoint
import Verif.Convert
import Verif.Props.Convert
import Verif.Overlap
import Verif.Props.Overlap
import Verif.Advect
import Verif.AdvectAdapt
import Verif.Props.Flux
import Verif.Props.Advect
import Verif.Props.AdvectAdapt
import Verif.AdvectCheck
import Verif.Props.AdvectCheck
import Verif.VarData
import Verif.Props.VarData
import Verif.Poisson
import Verif.Props.Poisson
import Verif.Props.PoissonExact
import Verif.Props.PoissonTranspose
import Verif.Props.PoissonLaplace
import Verif.PoissonSafe
import Verif.Props.PoissonSafe
import Verif.Props.NbrOnce
import Verif.Particles
import Verif.Props.Particles
import Verif.Life
import Verif.Props.Life
import Verif.Props.Interlaced
import Verif.Props.NbrCount
import Verif.Props.LifeSaved
import Verif.Props.NbrUniform
