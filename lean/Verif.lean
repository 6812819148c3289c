import Verif.Basic
import Verif.State
import Verif.Restriction.Model
import Verif.Restriction.Kernels
import Verif.Restriction.Unified
import Verif.Restriction.Spec
import Verif.Restriction.Rep
import Verif.Restriction.Create
import Verif.Restriction.Apply
import Verif.Restriction.Props
import Verif.Restriction.PointsSpec
import Verif.Restriction.Points
import Verif.Restriction.PointsProps
import Verif.Restriction.Layout
import Verif.Restriction.LayoutProps
import Verif.Restriction.Life
import Verif.Restriction.LifeSpec
import Verif.Restriction.LifeProps
import Verif.Restriction.LifeExamples
import Verif.Basis.Model
import Verif.Basis.Contract
import Verif.Basis.Chain
import Verif.Basis.Sweep
import Verif.Basis.Spec
import Verif.Basis.Apply
import Verif.Basis.Create
import Verif.Basis.Lift
import Verif.Basis.Safe
import Verif.Basis.Props
import Verif.Basis.Lagrange
import Verif.Basis.LagrangeProps
import Verif.Basis.QR
import Verif.Basis.QRLemmas
import Verif.Basis.QRStep
import Verif.Basis.QRFactor
import Verif.Basis.Pinv
import Verif.Basis.PinvProps
import Verif.Basis.Points
import Verif.Basis.PointsSpec
import Verif.Basis.PointsLemmas
import Verif.Basis.PointsBasis
import Verif.Basis.PointsState
import Verif.Basis.PointsProps
import Verif.Basis.PointsMore
import Verif.Basis.Avx
import Verif.Basis.AvxLemmas
import Verif.Basis.AvxCore
import Verif.Basis.AvxEq
import Verif.Basis.AvxBasis
import Verif.Basis.AvxProps
import Verif.Vector.Model
import Verif.Vector.Exec
import Verif.Vector.Track
import Verif.Vector.Specs
import Verif.Vector.Ops
import Verif.Vector.Calls
import Verif.Vector.Effects
import Verif.Vector.Inv
import Verif.Vector.Legal
import Verif.Vector.HistoryProps
import Verif.Vector.Arith
import Verif.Vector.ArithProps
import Verif.Vector.NormProps
import Verif.Vector.StridedProps
import Verif.RefCount.Model
import Verif.RefCount.Inv
import Verif.RefCount.Release
import Verif.RefCount.Props
import Verif.Context.Model
import Verif.Context.Hist
import Verif.Context.Inv
import Verif.Context.Legal
import Verif.Context.Props
import Verif.Ceed.Init
import Verif.Ceed.InitProps
import Verif.Ceed.Tree
import Verif.Ceed.TreeInv
import Verif.Ceed.TreeProps
import Verif.Ceed.TreeEx
import Verif.Ceed.Work
import Verif.Ceed.WorkProps
import Verif.QFunction.Fields
import Verif.QFunction.FieldsProps
import Verif.QFunction.Gallery
import Verif.QFunction.GalleryProps
import Verif.Operator.Model
import Verif.Operator.Spec
import Verif.Operator.Tables
import Verif.Operator.Inputs
import Verif.Operator.Elem
import Verif.Operator.Apply
import Verif.Operator.Props
import Verif.Operator.Examples
import Verif.Operator.Fields
import Verif.Operator.FieldsProps
import Verif.Operator.Ready
import Verif.Operator.ReadyExamples
import Verif.Operator.FallbackExamples
import Verif.Operator.Advance
import Verif.Composite.Lengths
import Verif.Composite.LengthsProps
import Verif.Composite.Single
import Verif.Composite.Apply
import Verif.Composite.ApplyProps
import Verif.Composite.ApplyExamples
import Verif.Operator.AssembleProps
import Verif.Operator.AsmData
import Verif.Operator.Diag
import Verif.Operator.MatrixSpec
import Verif.Operator.Matrix
import Verif.Operator.AsmLemmas
import Verif.Operator.DiagSpec
import Verif.Operator.DiagLemmas
import Verif.Operator.DiagElem
import Verif.Operator.DiagRun
import Verif.Operator.DiagPair
import Verif.Operator.PointBlock
import Verif.Operator.DiagProps
import Verif.Operator.DiagExamples
import Verif.Composite.Diag
import Verif.Composite.DiagExamples
import Verif.Operator.Full
import Verif.Operator.FullLemmas
import Verif.Operator.FullSpec
import Verif.Operator.FullElem
import Verif.Operator.FullRun
import Verif.Operator.FullProps
import Verif.Operator.FullExamples
import Verif.Composite.Full
import Verif.Composite.FullExamples
import Verif.Operator.Multigrid
import Verif.Operator.MultigridLemmas
import Verif.Operator.MultigridProps
import Verif.Operator.MultigridApply
import Verif.Operator.MultigridCoarse
import Verif.Operator.MultigridExamples
import Verif.Operator.Labels
import Verif.Operator.LabelsLemmas
import Verif.Operator.LabelsProps
import Verif.Operator.LabelsExamples
import Verif.Flops.Examples
import Verif.Flops.Points
import Verif.Operator.Opt
import Verif.Operator.BlockIn
import Verif.Operator.OptRstr
import Verif.Operator.OptSpec
import Verif.Operator.OptElem
import Verif.Operator.OptOut
import Verif.Operator.OptApply
import Verif.Operator.OptProps
import Verif.Operator.OptExamples
import Verif.Operator.Blocked
import Verif.Operator.BlockedElem
import Verif.Operator.BlockedApply
import Verif.Operator.BlockedProps
import Verif.Operator.BlockedExamples
import Verif.Composite.Mult
import Verif.Composite.MultProps
import Verif.Composite.MultExamples
import Verif.Operator.AtPoints
import Verif.Operator.AtPointsSpec
import Verif.Operator.AtPointsRstr
import Verif.Operator.AtPointsElem
import Verif.Operator.AtPointsOut
import Verif.Operator.AtPointsApply
import Verif.Operator.AtPointsProps
import Verif.Operator.AtPointsExamples
import Verif.Basis.Projection
import Verif.Basis.ProjectionSpec
import Verif.Basis.ProjectionLemmas
import Verif.Basis.ProjectionProps
import Verif.Basis.ProjectionExamples
import Verif.Composite.PointBlock
import Verif.Composite.PointBlockProps
import Verif.Composite.PointBlockExamples
import Verif.Fortran.Model
import Verif.Fortran.Props
import Verif.Fortran.Examples
import Verif.Memcheck.Model
import Verif.Memcheck.Spec
import Verif.Memcheck.Lemmas
import Verif.Memcheck.Steps
import Verif.Memcheck.Exec
import Verif.Memcheck.Props
import Verif.Memcheck.Examples
import Verif.Gpu.Machine
import Verif.Gpu.Sched
import Verif.Gpu.Logic
import Verif.Gpu.Rstr
import Verif.Gpu.Kernels
import Verif.Gpu.IncKernels
import Verif.Gpu.Transpose
import Verif.Gpu.Spec
import Verif.Gpu.Terms
import Verif.Gpu.Rows
import Verif.Gpu.Apply
import Verif.Gpu.Props
import Verif.Gpu.Examples
import Verif.Gpu.Phase
import Verif.Gpu.Jobs
import Verif.Gpu.Basis
import Verif.Gpu.BasisTensor
import Verif.Gpu.BasisKernel
import Verif.Gpu.Pieces
import Verif.Gpu.BasisNonTensor
import Verif.Gpu.BasisLaunch
import Verif.Gpu.BasisWeight
import Verif.Gpu.BasisSpec
import Verif.Gpu.BasisApply
import Verif.Gpu.BasisProps
import Verif.Gpu.BasisExamples
import Verif.Gpu.Oper
import Verif.Gpu.OperSpec
import Verif.Gpu.OperOrder
import Verif.Gpu.OperTables
import Verif.Gpu.OperBase
import Verif.Gpu.OperIn
import Verif.Gpu.OperMid
import Verif.Gpu.OperOut
import Verif.Gpu.OperProps
import Verif.Gpu.OperExec
import Verif.Gpu.OperExamples
import Verif.Gpu.Asm
import Verif.Gpu.AsmKernel
import Verif.Gpu.AsmCurl
import Verif.Gpu.AsmSpec
import Verif.Gpu.AsmProps
import Verif.Gpu.AsmExamples
import Verif.Gpu.AsmDiag
import Verif.Gpu.AsmDiagKernel
import Verif.Gpu.AsmDiagProps
import Verif.Gpu.AsmDiagExamples
import Verif.Gpu.AsmQF
import Verif.Gpu.AsmQFSpec
import Verif.Gpu.AsmQFIn
import Verif.Gpu.AsmQFRun
import Verif.Gpu.AsmQFCore
import Verif.Gpu.AsmQFProps
import Verif.Gpu.AsmQFExamples
import Verif.DevVec.Model
import Verif.DevVec.Spec
import Verif.DevVec.Lemmas
import Verif.DevVec.Steps
import Verif.DevVec.Rel
import Verif.DevVec.Ops
import Verif.DevVec.Arith
import Verif.DevVec.Calls
import Verif.DevVec.Calls2
import Verif.DevVec.Calls3
import Verif.DevVec.Calls4
import Verif.DevVec.Own
import Verif.DevVec.Exec
import Verif.DevVec.Props
import Verif.DevVec.Examples
import Verif.Gpu.VectorKernels
import Verif.Basis.Schur
import Verif.Basis.SchurLemmas
import Verif.Basis.SchurTri
import Verif.Basis.SchurBack
import Verif.Basis.SchurRot
import Verif.Basis.SchurSweep
import Verif.Basis.SchurLoop
import Verif.Basis.SchurProps
import Verif.Basis.SimDiag
import Verif.Basis.SimDiagProps
import Verif.Jit.Model
import Verif.Jit.Path
import Verif.Jit.Lines
import Verif.Jit.Load
import Verif.Jit.Once
import Verif.Jit.Props
import Verif.Operator.Fdm
import Verif.Operator.FdmSpec
import Verif.Operator.FdmAlgebra
import Verif.Operator.FdmLemmas
import Verif.Operator.FdmProps
import Verif.Operator.FdmApply
import Verif.Operator.FdmMore
import Verif.Operator.FdmExamples
import Verif.Quad.Legendre
import Verif.Quad.Rules
import Verif.Quad.Model
import Verif.Quad.Lemmas
import Verif.Quad.Gauss
import Verif.Quad.Props
import Verif.Quad.Examples
import Verif.Operator.AtPointsDiagProps
import Verif.Operator.AtPointsDiagExamples
import Verif.Operator.OptAsm
import Verif.Operator.OptAsmSpec
import Verif.Operator.OptAsmCols
import Verif.Operator.OptAsmBlk
import Verif.Operator.OptAsmRun
import Verif.Operator.OptAsmProps
import Verif.Operator.BlockedAsm
import Verif.Operator.BlockedAsmSpec
import Verif.Operator.BlockedAsmBlk
import Verif.Operator.BlockedAsmRun
import Verif.Operator.BlockedAsmProps
import Verif.DevCtx.Model
import Verif.DevCtx.Spec
import Verif.DevCtx.Inv
import Verif.DevCtx.Calls
import Verif.DevCtx.Main
import Verif.DevCtx.Examples
import Verif.CheckCtx.Model
import Verif.CheckCtx.Spec
import Verif.CheckCtx.Ops
import Verif.CheckCtx.Calls
import Verif.CheckCtx.Calls2
import Verif.CheckCtx.Main
import Verif.CheckCtx.Examples
import Verif.CheckQF.Model
import Verif.CheckQF.Spec
import Verif.CheckQF.Lemmas
import Verif.CheckQF.Main
import Verif.CheckQF.Changed
import Verif.CheckQF.Examples
import Verif.Operator.AtPointsAsm
import Verif.Operator.AtPointsAsmSpec
import Verif.Operator.AtPointsAsmRun
import Verif.Operator.AtPointsAsmElem
import Verif.Operator.AtPointsAsmProps
import Verif.Operator.AtPointsAsmRstr
import Verif.Operator.Query
import Verif.Operator.QueryProps
import Verif.Ceed.JitPaths
import Verif.Ceed.JitPathsProps
import Verif.Ceed.JitPathsHist
import Verif.Operator.AtPointsAsmExamples
import Verif.CheckQF.Refused
