import Verif.Props.TimeBasis
import Verif.Props.Quadrature
import Verif.Props.Indices
import Verif.Props.Forms
import Verif.Props.MatrixFree
import Verif.Props.Precond
import Verif.Props.Object
import Verif.Props.Setup
import Verif.Props.Requests
import Verif.Props.InitialData
import Verif.Props.Construct
import Verif.Props.Coarse
import Verif.Props.Errors
import Verif.Props.Plot
import Verif.Props.Gmres
import Verif.Props.Drivers
import Verif.Props.Meshes
import Verif.Props.MeshFiles
import Verif.Props.MeshNodes
import Verif.Props.MeshGroups
import Verif.Props.Indicators
import Verif.Props.Solvable
import Verif.Props.Rhs
import Verif.Props.Scripts
import Verif.Props.Observe
import Verif.Props.StartTime
import Verif.Lemmas.RadauBound
import Verif.Props.Stability
import Verif.Spec.Approx
import Verif.Props.Apriori
import Verif.Props.ParaView
import Verif.Props.Parallel
import Verif.Model.Float
import Verif.Props.Float
import Verif.Props.CoarseMatrix
import Verif.Props.PrecondApi
import Verif.Props.Inexact
import Verif.Props.CallerVectors
import Verif.Props.PublicApi
import Verif.Model.Regions
import Verif.Props.Regions
import Verif.Model.Fitted
import Verif.Props.Fitted
import Verif.Model.ParallelPre
import Verif.Lemmas.ParallelPre
import Verif.Props.ParallelPre
import Verif.Lemmas.Krylov
import Verif.Lemmas.Skeleton
import Verif.Lemmas.ProductKernel
import Verif.Props.Iterations
import Verif.Props.CoarseApi
import Verif.Props.CoarseRetry
import Verif.Lemmas.Similar
import Verif.Props.Retry
import Verif.Props.RequestsApi
import Verif.Props.FailedRequests
import Verif.Spec.Rate
import Verif.Lemmas.Interp
import Verif.Props.TimeRate
import Verif.Lemmas.NodeControl
import Verif.Props.ReportedRate
import Verif.Props.ForwardMarch
import Verif.Model.Interval
import Verif.Lemmas.Interval
import Verif.Lemmas.ReportDiff
import Verif.Props.OneD
import Verif.Props.ThreeD
import Verif.Lemmas.LinInterp
import Verif.Lemmas.Sine1
import Verif.Lemmas.Dist1
import Verif.Props.Wave1
import Verif.Props.Wave3
import Verif.Lemmas.GridInterp
import Verif.Lemmas.SineBox
import Verif.Lemmas.StandingEnergy
import Verif.Lemmas.StandingWave
import Verif.Lemmas.SupSlab
import Verif.Props.Standing
import Verif.Props.Wave3Error
import Verif.Lemmas.Blind
import Verif.Props.Arguments
import Verif.Model.StabDict
import Verif.Props.StabDict
import Verif.Props.StabChange
import Verif.Lemmas.Renumber
import Verif.Props.Renumber
import Verif.Model.SharedDomain
import Verif.Props.SharedDomain
import Verif.Props.AnyOrder
import Verif.Props.OrderBound
import Verif.Props.OrderReport
import Verif.Lemmas.TriElliptic
import Verif.Lemmas.TriVolume
import Verif.Lemmas.TriSquare
import Verif.Props.Wave2
import Verif.Props.TwoD
import Verif.Props.TwoDExample
import Verif.Lemmas.TriInterp
import Verif.Lemmas.TriMode
import Verif.Lemmas.TriMesh
import Verif.Props.Wave2Error
import Verif.Model.TriRefine
import Verif.Lemmas.TriRefine
import Verif.Props.Refine
import Verif.Lemmas.Mode1
import Verif.Props.Fit
import Verif.Props.Fit2
import Verif.Props.Fit3
import Verif.Props.Misfit
import Verif.Props.Noise
import Verif.Props.Wave1Order
import Verif.Props.SlabSolvable
import Verif.Props.ScriptKrylov
import Verif.Props.NoiseScripts
import Verif.Props.MisfitScripts
import Verif.Props.Csr
import Verif.Props.FormsMatrices
import Verif.Props.Versions
import Verif.Props.MeshTables
