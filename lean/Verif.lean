import Verif.Model.Accessors
import Verif.Model.Affine
import Verif.Model.AffineLife
import Verif.Model.Basis
import Verif.Model.Bayes
import Verif.Model.BayesRom
import Verif.Model.CompressedDim
import Verif.Model.Cond
import Verif.Model.Continuous
import Verif.Model.Core
import Verif.Model.DdtCall
import Verif.Model.DdtMake
import Verif.Model.DdtNonuniform
import Verif.Model.Equal
import Verif.Model.FiniteDiff
import Verif.Model.Gridsearch
import Verif.Model.Hdf5
import Verif.Model.Interp
import Verif.Model.InterpDdt
import Verif.Model.InterpLife
import Verif.Model.InterpModelIO
import Verif.Model.Kron
import Verif.Model.Lift
import Verif.Model.Lstsq
import Verif.Model.ModelIO
import Verif.Model.Mono
import Verif.Model.MultiShared
import Verif.Model.OpAdd
import Verif.Model.Operators
import Verif.Model.ParamGalerkin
import Verif.Model.ParamLife
import Verif.Model.ParamModel
import Verif.Model.ParamRom
import Verif.Model.ParamSelect
import Verif.Model.PodSolver
import Verif.Model.Post
import Verif.Model.PreFun
import Verif.Model.RegSelect
import Verif.Model.Reproject
import Verif.Model.Rom
import Verif.Model.RomFit
import Verif.Model.RomPredict
import Verif.Model.RomSelect
import Verif.Model.SetEntries
import Verif.Model.Shared
import Verif.Model.Snapshots
import Verif.Model.SolverAdapt
import Verif.Model.SolverIO
import Verif.Model.Sparse
import Verif.Model.Timer
import Verif.Model.TimerLog
import Verif.Model.Transform
import Verif.Model.TransformIO
import Verif.Model.TransformShared
import Verif.Model.Verify
import Verif.Model.VerifyBasis
import Verif.Model.VerifyDdt
import Verif.Model.VerifyDdtTests
import Verif.Model.VerifyLift
import Verif.Model.VerifyOp
import Verif.Model.VerifyParam
import Verif.Model.VerifySolver
import Verif.Lemmas.Affine
import Verif.Lemmas.Basis
import Verif.Lemmas.Bayes
import Verif.Lemmas.BestApprox
import Verif.Lemmas.CompressedDim
import Verif.Lemmas.Cond
import Verif.Lemmas.DdtRows
import Verif.Lemmas.EnoughSamples
import Verif.Lemmas.FiniteDiff
import Verif.Lemmas.Grad
import Verif.Lemmas.InputChange
import Verif.Lemmas.InterpModel
import Verif.Lemmas.InterpModelIO
import Verif.Lemmas.Isometry
import Verif.Lemmas.Kron
import Verif.Lemmas.KronJac
import Verif.Lemmas.Lift
import Verif.Lemmas.LinAlg
import Verif.Lemmas.Lstsq
import Verif.Lemmas.Mono
import Verif.Lemmas.MonoFit
import Verif.Lemmas.MonoHist
import Verif.Lemmas.MonoMaster
import Verif.Lemmas.MonoProcess
import Verif.Lemmas.MonomialFree
import Verif.Lemmas.NormalEq
import Verif.Lemmas.OpStack
import Verif.Lemmas.ParamConstruct
import Verif.Lemmas.ParamFamily
import Verif.Lemmas.ParamFit
import Verif.Lemmas.ParamHist
import Verif.Lemmas.ParamLearn
import Verif.Lemmas.ParamMaster
import Verif.Lemmas.ParamModel
import Verif.Lemmas.ParamProcess
import Verif.Lemmas.ParamRegression
import Verif.Lemmas.ParamResidual
import Verif.Lemmas.ParamSelect
import Verif.Lemmas.ParamVariant
import Verif.Lemmas.Pod
import Verif.Lemmas.PodCore
import Verif.Lemmas.PodRoot
import Verif.Lemmas.Poly
import Verif.Lemmas.Recoord
import Verif.Lemmas.RegSelect
import Verif.Lemmas.RomFit
import Verif.Lemmas.Shared
import Verif.Lemmas.SliceSel
import Verif.Lemmas.Snapshots
import Verif.Lemmas.TlsBridge
import Verif.Lemmas.TlsFeasible
import Verif.Lemmas.TlsMatrix
import Verif.Lemmas.Transform
import Verif.Lemmas.TransformFit
import Verif.Lemmas.TransformLeaf
import Verif.Lemmas.TransformParts
import Verif.Lemmas.Translate
import Verif.Lemmas.Tuples
import Verif.Lemmas.Verify
import Verif.Props.Accessors
import Verif.Props.ActAlike
import Verif.Props.Affine
import Verif.Props.AffineCoordinates
import Verif.Props.AffineLife
import Verif.Props.Apply
import Verif.Props.Basis
import Verif.Props.BasisMake
import Verif.Props.BasisMulti
import Verif.Props.BasisMultiMake
import Verif.Props.Bayes
import Verif.Props.BayesFit
import Verif.Props.BayesRom
import Verif.Props.BayesRomCases
import Verif.Props.BayesSelect
import Verif.Props.Centering
import Verif.Props.Composite
import Verif.Props.CompressedDim
import Verif.Props.Cond
import Verif.Props.CondTrunc
import Verif.Props.Construct
import Verif.Props.Continuous
import Verif.Props.Coordinates
import Verif.Props.DdtCall
import Verif.Props.DdtCommute
import Verif.Props.DdtMake
import Verif.Props.Equal
import Verif.Props.FiniteDiff
import Verif.Props.Fit
import Verif.Props.FitDiscrete
import Verif.Props.FitOptimal
import Verif.Props.Galerkin
import Verif.Props.GalerkinCompose
import Verif.Props.Gridsearch
import Verif.Props.InplaceFlag
import Verif.Props.InputCoordinates
import Verif.Props.Interp
import Verif.Props.InterpDdt
import Verif.Props.InterpDefault
import Verif.Props.InterpFitted
import Verif.Props.InterpFromModels
import Verif.Props.InterpLife
import Verif.Props.InterpModel
import Verif.Props.InterpModelIO
import Verif.Props.InterpOrder
import Verif.Props.InterpRefit
import Verif.Props.InterpResiduals
import Verif.Props.InterpTraining
import Verif.Props.JacobianOrder
import Verif.Props.Kron
import Verif.Props.Lift
import Verif.Props.LstsqL2
import Verif.Props.LstsqPost
import Verif.Props.LstsqSize
import Verif.Props.LstsqSpec
import Verif.Props.LstsqTik
import Verif.Props.LstsqTsvd
import Verif.Props.ModelCopy
import Verif.Props.ModelEq
import Verif.Props.ModelIO
import Verif.Props.ModelJacobian
import Verif.Props.MultiShared
import Verif.Props.OpAdd
import Verif.Props.OpStates
import Verif.Props.OrthogonalCoordinates
import Verif.Props.ParamAccept
import Verif.Props.ParamAgain
import Verif.Props.ParamDims
import Verif.Props.ParamDiscrete
import Verif.Props.ParamEvaluate
import Verif.Props.ParamGalerkin
import Verif.Props.ParamLife
import Verif.Props.ParamMade
import Verif.Props.ParamModel
import Verif.Props.ParamOptimal
import Verif.Props.ParamOrder
import Verif.Props.ParamRepeated
import Verif.Props.ParamResiduals
import Verif.Props.ParamRom
import Verif.Props.ParamRomMisuse
import Verif.Props.ParamSelect
import Verif.Props.ParamSelectOrder
import Verif.Props.ParamSelectTests
import Verif.Props.Persist
import Verif.Props.Pod
import Verif.Props.PodCriteria
import Verif.Props.PodFunction
import Verif.Props.PodHistory
import Verif.Props.PodIO
import Verif.Props.PodOptimal
import Verif.Props.PodPairing
import Verif.Props.PodSolver
import Verif.Props.Post
import Verif.Props.PostValue
import Verif.Props.PreFun
import Verif.Props.Predict
import Verif.Props.ProjectionError
import Verif.Props.Recover
import Verif.Props.RegSelect
import Verif.Props.Repeated
import Verif.Props.RepeatedTikhonov
import Verif.Props.Reproject
import Verif.Props.Residuals
import Verif.Props.Rom
import Verif.Props.RomCoordinates
import Verif.Props.RomFit
import Verif.Props.RomFitMisuse
import Verif.Props.RomFitOptimal
import Verif.Props.RomHorizon
import Verif.Props.RomOrder
import Verif.Props.RomRepeated
import Verif.Props.RomScaling
import Verif.Props.RomSelect
import Verif.Props.RomSelectCases
import Verif.Props.RomSelectTests
import Verif.Props.RomSelectTimes
import Verif.Props.SetEntries
import Verif.Props.Shared
import Verif.Props.Snapshots
import Verif.Props.SolverIO
import Verif.Props.SolverReset
import Verif.Props.Sparse
import Verif.Props.Superpose
import Verif.Props.Timer
import Verif.Props.TimerLog
import Verif.Props.Total
import Verif.Props.TrainOrder
import Verif.Props.TransformFit
import Verif.Props.TransformIO
import Verif.Props.TransformInv
import Verif.Props.TransformRange
import Verif.Props.TransformReject
import Verif.Props.TransformShared
import Verif.Props.TransformSpec
import Verif.Props.TransformSplit
import Verif.Props.Verify
import Verif.Props.VerifyBasis
import Verif.Props.VerifyBasisLimits
import Verif.Props.VerifyDdt
import Verif.Props.VerifyDdtFd
import Verif.Props.VerifyDdtLimits
import Verif.Props.VerifyDdtTests
import Verif.Props.VerifyExact
import Verif.Props.VerifyLift
import Verif.Props.VerifyLiftLimits
import Verif.Props.VerifyLiftQuad
import Verif.Props.VerifyLimits
import Verif.Props.VerifyOp
import Verif.Props.VerifyOpAccept
import Verif.Props.VerifyOpBuiltin
import Verif.Props.VerifyOpLimits
import Verif.Props.VerifyParam
import Verif.Props.VerifySolver
import Verif.Props.VerifySolverLimits
