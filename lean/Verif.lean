import Verif.Model.Py
import Verif.Model.Tensors
import Verif.Spec.Tensors
import Verif.Props.Tensors
import Verif.Props.Quadrature
import Verif.Props.Integrators
import Verif.Props.Bell
import Verif.Props.BellC1
import Verif.Props.Helpers
import Verif.Props.Sample
import Verif.Props.Grid
import Verif.Model.Refine
import Verif.Props.GridQuery
import Verif.Props.GridEq
import Verif.Props.Refine
import Verif.Props.RefineEq
import Verif.Props.GridEquiv
import Verif.Props.RefineCompose
import Verif.Props.InterpEval
import Verif.Spec.Steps
import Verif.Spec.Simulation
import Verif.Lemmas.SimHistory
import Verif.Props.Steps
import Verif.Lemmas.SimFixed
import Verif.Lemmas.SimCreate
import Verif.Props.Simulation
import Verif.Lemmas.SimInitial
import Verif.Lemmas.SimRanges
import Verif.Lemmas.Constraints
import Verif.Props.SimState
import Verif.Props.Dirichlet
import Verif.Lemmas.SimSuccess
import Verif.Lemmas.Stay
import Verif.Props.Usable
import Verif.Props.Energy
import Verif.Props.Thermal
import Verif.Model.Plot
import Verif.Props.Recorded
import Verif.Lemmas.Retry
import Verif.Props.Retry
import Verif.Props.Plots
import Verif.Model.Float64
import Verif.Model.TensorText
import Verif.Props.TensorText
import Verif.Props.Rigid
import Verif.Props.Optimal
import Verif.Props.Witness
import Verif.Props.Rounding
import Verif.Props.Reorder
import Verif.Model.Storage
import Verif.Spec.Storage
import Verif.Lemmas.Storage
import Verif.Lemmas.StorageRefine
import Verif.Props.Storage
import Verif.Spec.HeatCapacity
import Verif.Lemmas.HeatCapacity
import Verif.Props.HeatCapacity
import Verif.Model.FloatLocate
import Verif.Lemmas.FloatLocate
import Verif.Props.FloatLocate
import Verif.Spec.Attributes
import Verif.Lemmas.Attributes
import Verif.Props.Attributes
import Verif.Model.FloatRefine
import Verif.Spec.FloatGrid
import Verif.Lemmas.FloatNorm
import Verif.Lemmas.FloatGrid
import Verif.Lemmas.FloatRefine
import Verif.Lemmas.FloatRefineMain
import Verif.Props.FloatRefine
import Verif.Props.Factory
import Verif.Model.Slices
import Verif.Props.Slices
import Verif.Model.TensorStorage
import Verif.Spec.TensorStorage
import Verif.Lemmas.TensorStorage
import Verif.Props.TensorStorage
import Verif.Model.FloatTime
import Verif.Props.FloatTime
import Verif.Props.Dyadic
import Verif.Props.Force
import Verif.Props.Converge
import Verif.Props.Approx
import Verif.Props.Consistency
import Verif.Props.Transition
import Verif.Props.Rest
import Verif.Props.FirstLaw
import Verif.Props.FirstLawCase
import Verif.Props.Cold
import Verif.Props.Operators
import Verif.Props.Similar
import Verif.Props.ApproxC1
import Verif.Props.ConsistencyC1
import Verif.Props.ConvergeC1
import Verif.Props.BellUnique
import Verif.Props.PlotRange
import Verif.Props.SimilarReg
import Verif.Props.Posed
import Verif.Props.Descent
import Verif.Props.StepText
import Verif.Props.FineGrid
import Verif.Props.FloatQuadrature
import Verif.Props.FloatTolerance
import Verif.Props.FloatTensors
import Verif.Props.FloatIntegrators
import Verif.Props.FloatInterp
import Verif.Props.BaryClamp
import Verif.Props.Attempts
import Verif.Props.Endures
import Verif.Props.Threshold
import Verif.Props.Pulled
import Verif.Props.Warming
import Verif.Props.Moves
import Verif.Model.FloatSearch
import Verif.Props.FloatSearch
import Verif.Props.Cases
import Verif.Props.GridCases
import Verif.Props.EvalAccuracy
import Verif.Props.RecordedAccuracy
