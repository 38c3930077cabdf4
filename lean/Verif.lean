import Verif.Basic
import Verif.Model.AllParams
import Verif.Model.Amplify
import Verif.Model.Batch
import Verif.Model.Calib
import Verif.Model.Compare
import Verif.Model.Console
import Verif.Model.Containers
import Verif.Model.CurveSets
import Verif.Model.Curves
import Verif.Model.EquivLinear
import Verif.Model.EveryLayer
import Verif.Model.Figures
import Verif.Model.FileSys
import Verif.Model.Filter
import Verif.Model.Fit
import Verif.Model.FitFig
import Verif.Model.FitMkz
import Verif.Model.Float
import Verif.Model.FloatCode
import Verif.Model.FloatInt
import Verif.Model.FloatProfile
import Verif.Model.Genetic
import Verif.Model.HhFig
import Verif.Model.LoadTxt
import Verif.Model.Motion
import Verif.Model.MotionFigs
import Verif.Model.MotionMethods
import Verif.Model.MotionSpectra
import Verif.Model.NonFinite
import Verif.Model.Nonlinear
import Verif.Model.NumFormat
import Verif.Model.Oscillator
import Verif.Model.ParamSets
import Verif.Model.Phase
import Verif.Model.PlotLine
import Verif.Model.Printed
import Verif.Model.Profile
import Verif.Model.ProfilePlot
import Verif.Model.ProfileTf
import Verif.Model.Query
import Verif.Model.ResPlot
import Verif.Model.ResultFiles
import Verif.Model.ScoreFigs
import Verif.Model.ScoreProc
import Verif.Model.ScoreText
import Verif.Model.Scores
import Verif.Model.SimInit
import Verif.Model.SineSmooth
import Verif.Model.SiteFactors
import Verif.Model.Smooth
import Verif.Model.Soil
import Verif.Model.Spectrum
import Verif.Model.Stamp
import Verif.Model.SurfaceRun
import Verif.Model.Svm
import Verif.Model.SvmLayers
import Verif.Model.SvmSeed
import Verif.Model.Taper
import Verif.Model.TextFiles
import Verif.Model.Transfer
import Verif.Model.Typed
import Verif.Model.VsProfile
import Verif.Model.Wavelet
import Verif.Proof.Amplify
import Verif.Proof.Containers
import Verif.Proof.EquivLinear
import Verif.Proof.EveryLayer
import Verif.Proof.FileSys
import Verif.Proof.Filter
import Verif.Proof.Float
import Verif.Proof.FloatProfile
import Verif.Proof.Flux
import Verif.Proof.Fourier
import Verif.Proof.HasAt
import Verif.Proof.ListCont
import Verif.Proof.Motion
import Verif.Proof.NumFormat
import Verif.Proof.Profile
import Verif.Proof.RespCont
import Verif.Proof.Single
import Verif.Proof.Stratify
import Verif.Proof.Svm
import Verif.Proof.SvmSlope
import Verif.Proof.Transfer
import Verif.Proof.Truncate
import Verif.Proof.VsProfile
import Verif.Props.AllParams
import Verif.Props.Amplify
import Verif.Props.AmplifyExt
import Verif.Props.AmplifyLti
import Verif.Props.Baseline
import Verif.Props.Batch
import Verif.Props.Calib
import Verif.Props.CalibCurves
import Verif.Props.CalibHH
import Verif.Props.CalibMono
import Verif.Props.CalibOut
import Verif.Props.Compare
import Verif.Props.Console
import Verif.Props.ConsoleRuns
import Verif.Props.ContainerExact
import Verif.Props.Containers
import Verif.Props.Contrast
import Verif.Props.CurveSets
import Verif.Props.Curves
import Verif.Props.CutColumn
import Verif.Props.DampGrowth
import Verif.Props.DampSampling
import Verif.Props.Darendeli
import Verif.Props.DarendeliFormula
import Verif.Props.DarendeliMkz
import Verif.Props.DarendeliShape
import Verif.Props.Density
import Verif.Props.EnergyFlux
import Verif.Props.EquivExact
import Verif.Props.EquivLimits
import Verif.Props.EquivLinear
import Verif.Props.EveryLayer
import Verif.Props.EveryLayerFlat
import Verif.Props.EveryLayerKin
import Verif.Props.EveryLayerLin
import Verif.Props.EveryLayerOut
import Verif.Props.EveryLayerTf
import Verif.Props.Exact
import Verif.Props.Figures
import Verif.Props.FiguresArgs
import Verif.Props.Filter
import Verif.Props.FilterOrder
import Verif.Props.FilterResponse
import Verif.Props.FilterStable
import Verif.Props.Fit
import Verif.Props.FitFig
import Verif.Props.FitMkz
import Verif.Props.FkzCross
import Verif.Props.FloatDepth
import Verif.Props.FloatIndex
import Verif.Props.FloatInt
import Verif.Props.FloatInterp
import Verif.Props.FloatMotion
import Verif.Props.FloatProfile
import Verif.Props.FreqSpectrum
import Verif.Props.Genetic
import Verif.Props.GeometryExact
import Verif.Props.HHShape
import Verif.Props.HhFig
import Verif.Props.HighFreq
import Verif.Props.KernelTable
import Verif.Props.LayerStrain
import Verif.Props.LoadTxt
import Verif.Props.Monotone
import Verif.Props.Motion
import Verif.Props.MotionCompare
import Verif.Props.MotionExact
import Verif.Props.MotionHist
import Verif.Props.MotionMethods
import Verif.Props.MotionObj
import Verif.Props.MotionSpectra
import Verif.Props.MotionTrunc
import Verif.Props.NonFinite
import Verif.Props.Nonlinear
import Verif.Props.NonlinearOut
import Verif.Props.Order
import Verif.Props.Oscillator
import Verif.Props.Padding
import Verif.Props.ParamCurves
import Verif.Props.ParamSets
import Verif.Props.PeakBounds
import Verif.Props.PeakProfiles
import Verif.Props.Phase
import Verif.Props.PhaseExact
import Verif.Props.PlotLine
import Verif.Props.Polarity
import Verif.Props.Printed
import Verif.Props.ProfileExact
import Verif.Props.ProfileGeometry
import Verif.Props.ProfilePlot
import Verif.Props.ProfileTf
import Verif.Props.Query
import Verif.Props.Raises
import Verif.Props.RaisesExt
import Verif.Props.RaisesMore
import Verif.Props.Repeat
import Verif.Props.ResPlot
import Verif.Props.ResultFiles
import Verif.Props.Reversal
import Verif.Props.RigidBase
import Verif.Props.SameGround
import Verif.Props.SampledFourier
import Verif.Props.SampledMotion
import Verif.Props.SampledSpectra
import Verif.Props.ScoreFigs
import Verif.Props.ScoreProc
import Verif.Props.ScoreText
import Verif.Props.Scores
import Verif.Props.ScoresObj
import Verif.Props.ScoresRec
import Verif.Props.ScoresScale
import Verif.Props.ScoresSwap
import Verif.Props.ScoresUnit
import Verif.Props.Sensitivity
import Verif.Props.SimInit
import Verif.Props.SineSmooth
import Verif.Props.SiteFactors
import Verif.Props.SiteInterp
import Verif.Props.SiteLines
import Verif.Props.Smooth
import Verif.Props.Soil
import Verif.Props.SpectraLimits
import Verif.Props.Spectrum
import Verif.Props.Stamp
import Verif.Props.Superpose
import Verif.Props.SurfaceRun
import Verif.Props.Svm
import Verif.Props.SvmDisc
import Verif.Props.SvmFormula
import Verif.Props.SvmIter
import Verif.Props.SvmLayers
import Verif.Props.SvmRand
import Verif.Props.SvmSeed
import Verif.Props.SvmStats
import Verif.Props.Taper
import Verif.Props.TextFiles
import Verif.Props.TextFilesRead
import Verif.Props.TimeShift
import Verif.Props.Transfer
import Verif.Props.TransferStrat
import Verif.Props.TruncFig
import Verif.Props.TruncMeasures
import Verif.Props.Typed
import Verif.Props.UniformLayer
import Verif.Props.Units
import Verif.Props.ViolMore
import Verif.Props.VsProfile
import Verif.Props.Wavelet
import Verif.Props.WeakMotion
import Verif.Spec.Containers
import Verif.Spec.EquivLinear
import Verif.Spec.Motion
import Verif.Spec.Profile
import Verif.Spec.Transfer
import Verif.Spec.VsProfile
