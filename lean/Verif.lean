import Verif.Props.AllSame
import Verif.Props.Bincount
import Verif.Props.ConvertToBase
import Verif.Props.Fillnan
import Verif.Props.First
import Verif.Props.MinMax
import Verif.Props.OneHot
import Verif.Props.Ordered
import Verif.Props.PeakToPeak
import Verif.Props.Percentile
import Verif.Props.Searchsorted
import Verif.Props.Signal
import Verif.Props.Sosfilter
import Verif.Props.Unwrap
import Verif.Props.Softmax
import Verif.Props.Meanvar
import Verif.Props.Kbnsum
import Verif.Props.Mad
import Verif.Props.Wjaccard
import Verif.Props.Vnorm
import Verif.Props.Cross
import Verif.Props.TriArea
import Verif.Props.Corr
import Verif.Props.CorrRound
import Verif.Props.VnormRound
import Verif.Props.VnormPow
import Verif.Props.MeansRound
import Verif.Props.PmeanRound
import Verif.Props.PmeanSmall
import Verif.Props.PmeanTiny
import Verif.Props.LinearInterp
import Verif.Props.Deadzone
import Verif.Props.Step
import Verif.Props.YeoJohnson
import Verif.Props.Logistic
import Verif.Props.Issnan
import Verif.Props.Nextn
import Verif.Props.CxxGen
import Verif.Props.Gendot
import Verif.Props.Wrapped
import Verif.Props.ConvTemplate
import Verif.Props.Means
import Verif.Props.Logfact
import Verif.Props.Elementary
import Verif.Props.Normal
import Verif.Props.LazyImport
import Verif.Props.Uwrap
import Verif.Props.Expint
import Verif.Props.Log1p
import Verif.Props.Debye1
import Verif.Props.Loggamma1p
import Verif.Props.Erfcx
import Verif.Props.UfuncGen
import Verif.Props.GufuncGen
import Verif.Props.TriAreaRound
import Verif.Props.StepRound
import Verif.Props.MadRound
import Verif.Props.SoftmaxRound
import Verif.Props.Overflow
import Verif.Props.OverflowScaled
import Verif.Props.OverflowMeans
import Verif.Props.OverflowStep
import Verif.Props.OverflowMad
import Verif.Props.OverflowMeanvar
import Verif.Props.OverflowCorr
import Verif.Props.Inspector
import Verif.Props.ConvFiles
import Verif.Props.VnormSmall
import Verif.Props.MeansWRound
import Verif.Props.PmeanwRound
import Verif.Props.PmeanwTiny
import Verif.Props.SignalRound
import Verif.Props.FillnanRound
import Verif.Props.UnwrapRound
import Verif.Props.SosfilterRound
import Verif.Props.LogisticRound
import Verif.Props.RampRound
import Verif.Props.YeoJohnsonRound
import Verif.Props.NormalRound
import Verif.Props.ExpintRound
import Verif.Props.InvStepRound
import Verif.Props.LogfactRound
import Verif.Props.LogbetaRound
import Verif.Props.MeanvarSign
import Verif.Props.Scale
import Verif.Props.ScaleSignal
import Verif.Props.AbsSqRound
import Verif.Props.Dispatch
import Verif.Props.DispatchInt
import Verif.Props.SemivarRound
import Verif.Props.ExactInt
import Verif.Props.Refs
import Verif.Props.ModInit
import Verif.Props.GendotLife
import Verif.Props.ImportState
import Verif.Props.CodeGen
import Verif.Props.Flags
import Verif.Props.FlagsNaN
import Verif.Props.Threads
import Verif.Props.Overlap
import Verif.Props.Build
import Verif.Props.AgreeOrder
import Verif.Props.AgreeReal
import Verif.Props.Layout
import Verif.Props.Pieces
import Verif.Props.PiecesReal
import Verif.Props.Reorder
import Verif.Props.SpecialRamp
import Verif.Props.SpecialYeoInv
import Verif.Props.SignedZero
import Verif.Props.DispatchResults
import Verif.Props.SignedZeroLoops
import Verif.Props.SignedZeroStats
import Verif.Props.SignedZeroStep
import Verif.Props.SignedZeroSums
