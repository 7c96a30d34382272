import Verif.Lemmas.Ampere
import Verif.Lemmas.Atmosphere
import Verif.Lemmas.BSpline
import Verif.Lemmas.Clock
import Verif.Lemmas.Construct
import Verif.Lemmas.Curvi
import Verif.Lemmas.CurviAmp
import Verif.Lemmas.CurviAt
import Verif.Lemmas.CurviFar
import Verif.Lemmas.CurviFlat
import Verif.Lemmas.CurviGaussGR
import Verif.Lemmas.CurviGaussSR
import Verif.Lemmas.CurviRuns
import Verif.Lemmas.CurviStep
import Verif.Lemmas.Deposit
import Verif.Lemmas.DepositVel
import Verif.Lemmas.DiagTable
import Verif.Lemmas.DiagTime
import Verif.Lemmas.Energy
import Verif.Lemmas.EnergyBoost
import Verif.Lemmas.EnergyJuttner
import Verif.Lemmas.EnergyLaw
import Verif.Lemmas.EnergyNormal
import Verif.Lemmas.EnergyPower
import Verif.Lemmas.EnergyRotate
import Verif.Lemmas.EnergySobol
import Verif.Lemmas.EnergyThermal
import Verif.Lemmas.Esirkepov
import Verif.Lemmas.EsirkepovDiv
import Verif.Lemmas.Faraday
import Verif.Lemmas.FieldBC
import Verif.Lemmas.FieldOps
import Verif.Lemmas.FieldOut
import Verif.Lemmas.FieldSetter
import Verif.Lemmas.FieldSolver
import Verif.Lemmas.FieldStats
import Verif.Lemmas.FilterTorus
import Verif.Lemmas.FilterWall
import Verif.Lemmas.Float
import Verif.Lemmas.Fold
import Verif.Lemmas.FullExch
import Verif.Lemmas.FullField
import Verif.Lemmas.FullGauss
import Verif.Lemmas.FullMain
import Verif.Lemmas.FullMirror
import Verif.Lemmas.FullPush
import Verif.Lemmas.FullRotate
import Verif.Lemmas.FullSafe
import Verif.Lemmas.FullShift
import Verif.Lemmas.FullTidy
import Verif.Lemmas.FullTopo
import Verif.Lemmas.FullTranslate
import Verif.Lemmas.FullUnits
import Verif.Lemmas.FullWeights
import Verif.Lemmas.GRPush
import Verif.Lemmas.GRScheme
import Verif.Lemmas.Gauss
import Verif.Lemmas.GaussStep
import Verif.Lemmas.Halo
import Verif.Lemmas.HaloAxis
import Verif.Lemmas.Horizon
import Verif.Lemmas.Inject
import Verif.Lemmas.InjectOk
import Verif.Lemmas.Kernel
import Verif.Lemmas.KernelGood
import Verif.Lemmas.KernelOwn
import Verif.Lemmas.KernelRfl
import Verif.Lemmas.KernelSeq
import Verif.Lemmas.Lattice
import Verif.Lemmas.Metric
import Verif.Lemmas.MetricDeriv
import Verif.Lemmas.MetricGR
import Verif.Lemmas.MetricVec
import Verif.Lemmas.Mirror
import Verif.Lemmas.Moments
import Verif.Lemmas.Options
import Verif.Lemmas.OptionsAll
import Verif.Lemmas.OptionsGrid
import Verif.Lemmas.OutputInput
import Verif.Lemmas.Prtl
import Verif.Lemmas.PrtlBuf
import Verif.Lemmas.PrtlOutbox
import Verif.Lemmas.PrtlPack
import Verif.Lemmas.PrtlPhys
import Verif.Lemmas.PrtlPrep
import Verif.Lemmas.PrtlRecv
import Verif.Lemmas.PrtlSort
import Verif.Lemmas.PrtlWallField
import Verif.Lemmas.PrtlWalls
import Verif.Lemmas.Reshape
import Verif.Lemmas.Resume
import Verif.Lemmas.Sampler
import Verif.Lemmas.Setup
import Verif.Lemmas.Shapes
import Verif.Lemmas.ShapesRec
import Verif.Lemmas.Startup
import Verif.Lemmas.Stencil
import Verif.Lemmas.Tensor
import Verif.Lemmas.Third
import Verif.Lemmas.Topology
import Verif.Lemmas.Torus
import Verif.Lemmas.WallFlux
import Verif.Lemmas.WallGeo
import Verif.Lemmas.WallMain
import Verif.Lemmas.WallRuns
import Verif.Lemmas.Walls
import Verif.Model.Atmosphere
import Verif.Model.Base
import Verif.Model.BoundaryInput
import Verif.Model.Bulk
import Verif.Model.Bulk4
import Verif.Model.CheckpointFiles
import Verif.Model.Clock
import Verif.Model.Construct
import Verif.Model.Curvi
import Verif.Model.Decomp
import Verif.Model.Deposit
import Verif.Model.DepositVel
import Verif.Model.Diag
import Verif.Model.Directions
import Verif.Model.Divergence
import Verif.Model.Emission
import Verif.Model.EnergyDist
import Verif.Model.Enums
import Verif.Model.FieldBC
import Verif.Model.FieldOps
import Verif.Model.FieldOut
import Verif.Model.FieldSetter
import Verif.Model.FieldSolver
import Verif.Model.FieldStats
import Verif.Model.FieldsToPhys
import Verif.Model.Filter
import Verif.Model.Float
import Verif.Model.Footprint
import Verif.Model.FullStep
import Verif.Model.GRPush
import Verif.Model.Halo
import Verif.Model.Hybrid
import Verif.Model.Inject
import Verif.Model.Interp
import Verif.Model.Kernel
import Verif.Model.Launch
import Verif.Model.MainLoop
import Verif.Model.Maxwellian
import Verif.Model.MeshBox
import Verif.Model.Metric
import Verif.Model.MetricGR
import Verif.Model.Moments
import Verif.Model.MovingWindow
import Verif.Model.Options
import Verif.Model.Output
import Verif.Model.OutputInput
import Verif.Model.Params
import Verif.Model.Piston
import Verif.Model.Prompt
import Verif.Model.Prtl
import Verif.Model.PrtlComm
import Verif.Model.PrtlIO
import Verif.Model.PrtlPhys
import Verif.Model.PrtlWalls
import Verif.Model.Push
import Verif.Model.Ranks
import Verif.Model.Reshape
import Verif.Model.Restart
import Verif.Model.Resume
import Verif.Model.Rounded
import Verif.Model.Rounds
import Verif.Model.Session
import Verif.Model.SetBC
import Verif.Model.Setup
import Verif.Model.Shapes
import Verif.Model.SpeciesInput
import Verif.Model.Spectra
import Verif.Model.Startup
import Verif.Model.Stats
import Verif.Model.Step
import Verif.Model.Tags
import Verif.Model.Third
import Verif.Model.Topology
import Verif.Model.Tracker
import Verif.Model.Tuning
import Verif.Model.VecPot
import Verif.Model.Walls
import Verif.Props.Atmosphere
import Verif.Props.BoundaryInput
import Verif.Props.Bulk
import Verif.Props.Bulk4
import Verif.Props.Clock
import Verif.Props.Construct
import Verif.Props.CurviFaraday
import Verif.Props.CurviGauss
import Verif.Props.CurviGaussGR
import Verif.Props.CurviOrder
import Verif.Props.CurviReduce
import Verif.Props.Decomp
import Verif.Props.Deposit
import Verif.Props.DepositBounds
import Verif.Props.DepositTotal
import Verif.Props.DepositVel
import Verif.Props.DiagTable
import Verif.Props.DiagTime
import Verif.Props.DirHash
import Verif.Props.Directions
import Verif.Props.Divergence
import Verif.Props.Emission
import Verif.Props.Energy
import Verif.Props.EnergyDist
import Verif.Props.Enums
import Verif.Props.ExtCurrent
import Verif.Props.FieldBC
import Verif.Props.FieldEnforced
import Verif.Props.FieldLayers
import Verif.Props.FieldOut
import Verif.Props.FieldSetter
import Verif.Props.FieldSolver
import Verif.Props.FieldStats
import Verif.Props.FieldsToPhys
import Verif.Props.Filter
import Verif.Props.FilterWall
import Verif.Props.Float
import Verif.Props.Footprint
import Verif.Props.FullGauss
import Verif.Props.FullMirror
import Verif.Props.FullRotate
import Verif.Props.FullSafe
import Verif.Props.FullStep
import Verif.Props.FullTranslate
import Verif.Props.FullUnits
import Verif.Props.FullWeights
import Verif.Props.GRAxis
import Verif.Props.GRGeodesic
import Verif.Props.GRPush
import Verif.Props.GRScheme
import Verif.Props.Gauss
import Verif.Props.GuidingCentre
import Verif.Props.Halo
import Verif.Props.Horizon
import Verif.Props.Hybrid
import Verif.Props.Hydrostatic
import Verif.Props.Inject
import Verif.Props.InjectData
import Verif.Props.InjectIds
import Verif.Props.InjectPairs
import Verif.Props.Interp
import Verif.Props.Kernels
import Verif.Props.Launch
import Verif.Props.MainLoop
import Verif.Props.Maxwell
import Verif.Props.Maxwellian
import Verif.Props.MeshBox
import Verif.Props.Metric
import Verif.Props.MetricAlgebra
import Verif.Props.MetricDeriv
import Verif.Props.Moments
import Verif.Props.Momentum
import Verif.Props.MovingWindow
import Verif.Props.Options
import Verif.Props.OptionsGrid
import Verif.Props.Output
import Verif.Props.OutputInput
import Verif.Props.Params
import Verif.Props.Piston
import Verif.Props.PolarArea
import Verif.Props.Prompt
import Verif.Props.Prtl
import Verif.Props.PrtlComm
import Verif.Props.PrtlIO
import Verif.Props.PrtlPhys
import Verif.Props.PrtlWalls
import Verif.Props.Push
import Verif.Props.Redecompose
import Verif.Props.Remesh
import Verif.Props.Replenish
import Verif.Props.Reshape
import Verif.Props.Restart
import Verif.Props.RestartStep
import Verif.Props.Resume
import Verif.Props.Retention
import Verif.Props.Session
import Verif.Props.SetBC
import Verif.Props.Setup
import Verif.Props.Shapes
import Verif.Props.SpeciesInput
import Verif.Props.Spectra
import Verif.Props.Startup
import Verif.Props.Stats
import Verif.Props.Sync
import Verif.Props.Third
import Verif.Props.Tiling
import Verif.Props.Topology
import Verif.Props.Tracker
import Verif.Props.Tuning
import Verif.Props.VecPot
import Verif.Props.Walls
import Verif.Props.WindowWhole
import Verif.Spec.Clock
import Verif.Spec.Curvi
import Verif.Spec.DepositVel
import Verif.Spec.Diag
import Verif.Spec.Energy
import Verif.Spec.EnergyDist
import Verif.Spec.FieldBC
import Verif.Spec.FieldOut
import Verif.Spec.FieldSetter
import Verif.Spec.FieldStats
import Verif.Spec.Fields
import Verif.Spec.Filter
import Verif.Spec.FilterWall
import Verif.Spec.Float
import Verif.Spec.Footprint
import Verif.Spec.FullGauss
import Verif.Spec.FullMirror
import Verif.Spec.FullRotate
import Verif.Spec.FullSafe
import Verif.Spec.FullStep
import Verif.Spec.FullTranslate
import Verif.Spec.FullUnits
import Verif.Spec.FullWeights
import Verif.Spec.GRScheme
import Verif.Spec.Gauss
import Verif.Spec.Launch
import Verif.Spec.Maxwell
import Verif.Spec.Metric
import Verif.Spec.Moments
import Verif.Spec.Options
import Verif.Spec.OptionsGrid
import Verif.Spec.OutputInput
import Verif.Spec.Prompt
import Verif.Spec.PrtlPhys
import Verif.Spec.PrtlWalls
import Verif.Spec.Reshape
import Verif.Spec.Setup
import Verif.Spec.Stats
import Verif.Spec.Torus
import Verif.Spec.Walls
