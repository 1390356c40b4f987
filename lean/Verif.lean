import Verif.Model.Sym
import Verif.Model.Dict
import Verif.Model.Heap
import Verif.Model.PointExpr
import Verif.Model.Function
import Verif.Spec.Denote
import Verif.Proofs.Dict
import Verif.Proofs.PointExpr
import Verif.Model.RefCAS
import Verif.Proofs.RefCAS
import Verif.Spec.Invariant
import Verif.Proofs.State
import Verif.Props.PointExpr
import Verif.Spec.Sample
import Verif.Proofs.Oracle
import Verif.Proofs.LeafOracle
import Verif.Proofs.SumOracle
import Verif.Proofs.AddPoint
import Verif.Proofs.OracleAll
import Verif.Model.Program
import Verif.Spec.Exec
import Verif.Spec.Safe
import Verif.Proofs.ProgramExpr
import Verif.Proofs.Program
import Verif.Proofs.ProgramStep
import Verif.Proofs.StepAll
import Verif.Proofs.ProgramAll
import Verif.Spec.Registry
import Verif.Proofs.Registry
import Verif.Props.Registry
import Verif.Spec.Reach
import Verif.Proofs.OracleApi
import Verif.Props.Oracle
import Verif.Spec.Classes
import Verif.Proofs.Convex
import Verif.Spec.Interp
import Verif.Proofs.Interp
import Verif.Spec.Represent
import Verif.Proofs.Represent
import Verif.Props.Classes
import Verif.Props.Represent
import Verif.Model.Problem
import Verif.Spec.Problem
import Verif.Proofs.Matrix
import Verif.Spec.Clean
import Verif.Proofs.Clean
import Verif.Proofs.NoCC
import Verif.Proofs.ClassCons
import Verif.Proofs.SymMats
import Verif.Proofs.Names
import Verif.Props.Problem
import Verif.Model.Parsing
import Verif.Spec.Parsing
import Verif.Proofs.Strings
import Verif.Proofs.Linearize
import Verif.Proofs.Coeff
import Verif.Proofs.CoeffClosed
import Verif.Props.Parsing
import Verif.Model.Casadi
import Verif.Spec.Casadi
import Verif.Proofs.Casadi
import Verif.Props.Casadi
import Verif.Spec.Dual
import Verif.Proofs.Cholesky
import Verif.Proofs.Dual
import Verif.Proofs.Nlp
import Verif.Props.Certificate
import Verif.Model.Arrays
import Verif.Proofs.Arrays
import Verif.Props.Arrays
import Verif.Model.Qcqp
import Verif.Spec.Qcqp
import Verif.Proofs.Qcqp
import Verif.Proofs.QcqpCore
import Verif.Proofs.QcqpPack
import Verif.Props.Qcqp
import Verif.Model.Sdp
import Verif.Spec.Sdp
import Verif.Proofs.Sdp
import Verif.Props.Sdp
import Verif.Proofs.Bisect
import Verif.Props.Bisect
import Verif.Proofs.Relax
import Verif.Props.Relax
import Verif.Props.Bounds
import Verif.Props.NlpIff
import Verif.Model.Build
import Verif.Model.Circuits
import Verif.Model.CircuitsDec
import Verif.Model.CircuitsN
import Verif.Spec.Vals
import Verif.Spec.Guaranteed
import Verif.Spec.Feasible
import Verif.Proofs.Vals
import Verif.Proofs.BuildCalls
import Verif.Proofs.CircuitSem
import Verif.Proofs.CircuitFeasible
import Verif.Props.CircuitsCentral
import Verif.Props.CircuitsDecentral
import Verif.Props.Telescope
import Verif.Proofs.BuildLogic
import Verif.Proofs.Kcl
import Verif.Proofs.CanLogic
import Verif.Proofs.CircuitsNCan
import Verif.Spec.Kcl
import Verif.Props.CircuitsN
import Verif.Props.Kcl
import Verif.Model.Graph
import Verif.Model.Discretized
import Verif.Spec.Graph
import Verif.Spec.Discretized
import Verif.Proofs.Graph
import Verif.Proofs.GraphBuild
import Verif.Proofs.Dadmm
import Verif.Proofs.DadmmFixed
import Verif.Proofs.DadmmConv
import Verif.Props.Dadmm
import Verif.Props.DadmmConv
import Verif.Spec.Mixing
import Verif.Proofs.PgExtra
import Verif.Proofs.Weights
import Verif.Proofs.PgConv
import Verif.Props.Weights
import Verif.Props.PgExtra
import Verif.Props.PgConv
import Verif.Model.OptProblems
import Verif.Spec.Prox
import Verif.Proofs.Prox
import Verif.Props.Prox
import Verif.Proofs.SumRule
import Verif.Proofs.PgLimit
import Verif.Props.PgLimit
import Verif.Props.Variants
import Verif.Proofs.DadmmLimit
import Verif.Props.DadmmLimit
import Verif.Model.Utils
import Verif.Spec.Utils
import Verif.Proofs.Utils
import Verif.Props.Utils
import Verif.Model.Compare
import Verif.Spec.Poly
import Verif.Proofs.Poly
import Verif.Props.Compare
import Verif.Model.Eval
import Verif.Spec.Eval
import Verif.Props.Eval
import Verif.Model.Dispatch
import Verif.Props.Dispatch
import Verif.Model.Gurobi
import Verif.Props.Gurobi
import Verif.Props.GurobiSound
import Verif.Proofs.Isolate
import Verif.Props.Isolate
import Verif.Proofs.ExtraConv
import Verif.Props.Extra
import Verif.Proofs.Metric
import Verif.Props.Sensing
import Verif.Props.Objective
import Verif.Props.Linear
import Verif.Props.Cholesky
import Verif.Props.Records
import Verif.Props.DadmmSharp
import Verif.Props.DataGen
import Verif.Props.DecQp
import Verif.Proofs.Total
import Verif.Proofs.TotalQcqp
import Verif.Props.Total
import Verif.Proofs.CertCheck
import Verif.Props.CircuitCerts
import Verif.Props.CircuitCertsDec
import Verif.Proofs.Robust
import Verif.Props.Robust
import Verif.Proofs.Converge
import Verif.Props.ConvergeCentral
import Verif.Props.ConvergeDecentral
import Verif.Model.InitVals
import Verif.Proofs.Init
import Verif.Props.Init
import Verif.Spec.Standard
import Verif.Proofs.Interpolate
import Verif.Proofs.Realize
import Verif.Proofs.Tied
import Verif.Proofs.Strong
import Verif.Props.Interpolate
import Verif.Props.Realize
import Verif.Props.RealizeCircuits
import Verif.Spec.Strict
import Verif.Proofs.Complete
import Verif.Props.Complete
import Verif.Spec.Calls
import Verif.Proofs.CallPts
import Verif.Proofs.Slater
import Verif.Proofs.SlaterQuad
import Verif.Proofs.SlaterRun
import Verif.Props.CompleteCircuits
import Verif.Props.CompleteTuneC
import Verif.Props.CompleteAccel
import Verif.Props.CompleteRLC
import Verif.Props.CompletePpm
import Verif.Props.CompleteFC3RC
import Verif.Proofs.Hub
import Verif.Props.GradientDescent
import Verif.Props.ProximalPoint
import Verif.Model.Reference
import Verif.Spec.Reference
import Verif.Props.Reference
import Verif.Model.Verification
import Verif.Spec.Verification
import Verif.Proofs.Scale
import Verif.Proofs.Verification
import Verif.Proofs.VerificationUses
import Verif.Proofs.VerificationTags
import Verif.Proofs.VerificationCircuits
import Verif.Props.Verification
import Verif.Model.HelloWorld
import Verif.Spec.HelloWorld
import Verif.Props.HelloWorld
import Verif.Props.HelloWorldConv
import Verif.Model.Sizes
import Verif.Proofs.Sizes
import Verif.Props.Sizes
import Verif.Tests.Recorded
import Verif.Model.RelaxReport
import Verif.Props.RelaxReport
import Verif.Props.TotalSdp
import Verif.Proofs.TrackLogic
import Verif.Proofs.PrimalRun
import Verif.Proofs.EnsFns
import Verif.Props.Optimum
import Verif.Props.CompletePrimal
import Verif.Proofs.Repeat
import Verif.Proofs.DualRun
import Verif.Props.CompleteDual
import Verif.Props.CompleteProxGrad
import Verif.Proofs.Lower
import Verif.Proofs.LowerCircuits
import Verif.Proofs.LowerAdmm
import Verif.Props.Lower
import Verif.Proofs.CompleteEq
import Verif.Props.CompleteDrs
import Verif.Props.CompleteDys
import Verif.Props.Splitting
import Verif.Props.CompleteAdmm
import Verif.Props.CompleteAdmmProof
import Verif.Props.AdmmEuler
import Verif.Props.ProxGradBest
import Verif.Props.DgdExact
import Verif.Props.DiffusionExact
import Verif.Props.PgExtraClassic
