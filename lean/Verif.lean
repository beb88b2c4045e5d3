import Verif.Adjoint.Lemmas
import Verif.Adjoint.Model
import Verif.Adjoint.Props
import Verif.Adjoint.Spec
import Verif.Analysis.Files
import Verif.Analysis.Inversion
import Verif.Analysis.InversionProps
import Verif.Analysis.Purge
import Verif.Analysis.Restart
import Verif.Analysis.Sampling
import Verif.Analysis.States
import Verif.Analysis.TextParams
import Verif.Assembly.DiagRepair
import Verif.Assembly.Gather
import Verif.Assembly.GatherLemmas
import Verif.Assembly.GatherOnly
import Verif.Assembly.GatherProps
import Verif.Assembly.GatherSpec
import Verif.Assembly.Groups
import Verif.Assembly.GroupsLemmas
import Verif.Assembly.GroupsProps
import Verif.Assembly.GroupsSpec
import Verif.Assembly.Initial
import Verif.Assembly.InitialLemmas
import Verif.Assembly.InitialProps
import Verif.Assembly.Machine
import Verif.Assembly.MachineLemmas
import Verif.Assembly.Newton
import Verif.Assembly.ParamGrad
import Verif.Assembly.Projection
import Verif.Assembly.Scatter
import Verif.Assembly.ScatterLemmas
import Verif.Assembly.ScatterProps
import Verif.Assembly.ScatterSpec
import Verif.Assembly.Terms
import Verif.Assembly.Worksets
import Verif.Axioms
import Verif.BC.Lemmas
import Verif.BC.Model
import Verif.BC.Props
import Verif.BC.Values
import Verif.Dag.Lemmas
import Verif.Dag.Model
import Verif.Dag.Props
import Verif.Dag.Spec
import Verif.Database.Boundary
import Verif.Database.Model
import Verif.Database.Points
import Verif.Database.Props
import Verif.Discretization.Basis
import Verif.Discretization.BasisProps
import Verif.Discretization.Face
import Verif.Discretization.FaceProps
import Verif.Discretization.Families
import Verif.Discretization.Measure
import Verif.Discretization.MeasureProps
import Verif.Expr.ClassifyLemmas
import Verif.Expr.ClassifyLemmas2
import Verif.Expr.Decompose
import Verif.Expr.Eval
import Verif.Expr.EvalLemmas
import Verif.Expr.Meaning
import Verif.Expr.Model
import Verif.Expr.NameLemmas
import Verif.Expr.Numbers
import Verif.Expr.PassLemmas
import Verif.Expr.Props
import Verif.Expr.Props2
import Verif.Expr.Props3
import Verif.Expr.Props4
import Verif.Expr.RunLemmas
import Verif.Expr.Setup
import Verif.Expr.SetupLemmas
import Verif.Expr.Spec
import Verif.Expr.SplitLemmas
import Verif.Expr.TextLemmas
import Verif.Expr.TextLemmas2
import Verif.Expr.ValueLemmas
import Verif.Input.Settings
import Verif.LinAlg.Context
import Verif.LinAlg.ContextProps
import Verif.LinAlg.Graph
import Verif.LinAlg.GraphProps
import Verif.Mass.Lemmas
import Verif.Mass.Model
import Verif.Mass.Props
import Verif.Mesh.Construct
import Verif.Mesh.ExoData
import Verif.Mesh.ExoGrid
import Verif.Mesh.Simple
import Verif.Mesh.SimpleBrick
import Verif.Mesh.SimpleParallel
import Verif.Mesh.SimpleProps
import Verif.Micro.GrainProps
import Verif.Micro.Model
import Verif.Micro.SeedProps
import Verif.Modules.Bianisotropic
import Verif.Modules.Burgers
import Verif.Modules.Crystal
import Verif.Modules.CrystalProps
import Verif.Modules.Elasticity
import Verif.Modules.Elastodynamics
import Verif.Modules.Euler
import Verif.Modules.EulerLemmas
import Verif.Modules.EulerProps
import Verif.Modules.Hartmann
import Verif.Modules.Helmholtz
import Verif.Modules.KL
import Verif.Modules.KLProps
import Verif.Modules.Kinetic
import Verif.Modules.Kuramoto
import Verif.Modules.LevelSet
import Verif.Modules.Loops
import Verif.Modules.LowMach
import Verif.Modules.LowMachProps
import Verif.Modules.Maxwell
import Verif.Modules.MaxwellControl
import Verif.Modules.MaxwellPotential
import Verif.Modules.NavierStokes
import Verif.Modules.NeoHookean
import Verif.Modules.NeoHookeanProps
import Verif.Modules.PhaseField
import Verif.Modules.Porous
import Verif.Modules.PorousMixed
import Verif.Modules.Rothermal
import Verif.Modules.Saturation
import Verif.Modules.ShallowHybrid
import Verif.Modules.ShallowHybridProps
import Verif.Modules.ShallowWater
import Verif.Modules.Stokes
import Verif.Modules.StressMeasures
import Verif.Modules.Thermal
import Verif.Modules.Transport
import Verif.Modules.Weak
import Verif.Modules.WeakGalerkin
import Verif.Multiscale.Input
import Verif.Multiscale.Model
import Verif.Multiscale.Props
import Verif.Multiscale.Seen
import Verif.Multiscale.Training
import Verif.Objective.Blocks
import Verif.Objective.Lemmas
import Verif.Objective.Model
import Verif.Objective.Props
import Verif.Objective.SensorGrad
import Verif.Objective.Sensors
import Verif.Objective.Slots
import Verif.Objective.Spec
import Verif.Objective.StateGrad
import Verif.Opt.Batch
import Verif.Opt.Bounds
import Verif.Opt.Lemmas
import Verif.Opt.Metric
import Verif.Opt.Model
import Verif.Opt.Objective
import Verif.Opt.Props
import Verif.Opt.Run
import Verif.Opt.Spec
import Verif.Opt.StochRun
import Verif.Param.Dynamic
import Verif.Param.Fields
import Verif.Param.Lemmas
import Verif.Param.Levels
import Verif.Param.Model
import Verif.Param.Props
import Verif.Param.Protocol
import Verif.Param.Spec
import Verif.Physics.Basis
import Verif.Physics.Flux
import Verif.Physics.InitialData
import Verif.Physics.Modules
import Verif.Physics.Numbers
import Verif.Physics.Settings
import Verif.Physics.Weights
import Verif.Postprocess.Declared
import Verif.Postprocess.Dft
import Verif.Postprocess.Exodus
import Verif.Postprocess.FarField
import Verif.Postprocess.Fields
import Verif.Postprocess.FluxFile
import Verif.Postprocess.Integrals
import Verif.Postprocess.Movie
import Verif.Postprocess.Names
import Verif.Postprocess.QuadFiles
import Verif.Postprocess.Quantities
import Verif.Postprocess.Record
import Verif.Postprocess.Repeat
import Verif.Postprocess.Responses
import Verif.Postprocess.SensorData
import Verif.Postprocess.SensorFiles
import Verif.Postprocess.SensorValue
import Verif.Postprocess.Sensors
import Verif.Postprocess.TrueSolutions
import Verif.Registry.Model
import Verif.Registry.Props
import Verif.Solver.CGLemmas
import Verif.Solver.CGProps
import Verif.Solver.Model
import Verif.Solver.NLProps
import Verif.Solver.Steady
import Verif.Solver.SteadyProps
import Verif.Storage.Model
import Verif.Storage.Props
import Verif.Subgrid.AdjointSolve
import Verif.Subgrid.Errors
import Verif.Subgrid.Flux
import Verif.Subgrid.Groups
import Verif.Subgrid.Interp
import Verif.Subgrid.Life
import Verif.Subgrid.Output
import Verif.Subgrid.Refine.Lemmas
import Verif.Subgrid.Refine.Model
import Verif.Subgrid.Refine.Props
import Verif.Subgrid.Refine.Simplex
import Verif.Subgrid.Sens
import Verif.Subgrid.Sides
import Verif.Subgrid.Switch
import Verif.Time.LoopProps
import Verif.Time.Model
import Verif.Time.Props
import Verif.Time.Seed
import Verif.Time.SeedUse
import Verif.Time.Settings
import Verif.Time.Spec
import Verif.Time.StepProps
import Verif.Time.Tables
import Verif.UQ.Model
import Verif.UQ.Props
import Verif.Views.DataFile
import Verif.Views.Grid
import Verif.Views.GridProps
import Verif.Views.Sparse
import Verif.Views.SparseProps
import Verif.Workset.Lemmas
import Verif.Workset.Lemmas2
import Verif.Workset.Lemmas3
import Verif.Workset.LookupProps
import Verif.Workset.Model
import Verif.Workset.Points
import Verif.Workset.Props
import Verif.Workset.Spec
