import Verif.Lemmas.XF
import Verif.Model.Loss
import Verif.Model.Tree
import Verif.Props.Tree
import Verif.Props.MinChild
import Verif.Props.Gain
import Verif.Model.MultiClass
import Verif.Model.Mem
import Verif.Model.MemCV
import Verif.Props.Importance
import Verif.Props.Reuse
import Verif.Props.Math
import Verif.Props.Loss
import Verif.Props.Options
import Verif.Props.Predict
import Verif.Props.TrainBugs
import Verif.Props.Json
import Verif.Props.Stat
import Verif.Props.TextData
import Verif.Props.Confu
import Verif.Props.CV
import Verif.Props.Grid
import Verif.Props.Grad
import Verif.Props.GradFormula
import Verif.Props.GradSearch
import Verif.Props.Boost
import Verif.Props.Repro
import Verif.Lemmas.RealTrain
import Verif.Props.PredictTotal
import Verif.Props.RealTrain
import Verif.Props.BaseScore
import Verif.Lemmas.Invariance
import Verif.Lemmas.InvarianceModel
import Verif.Props.Invariance
import Verif.Lemmas.TreeMk
import Verif.Lemmas.ScanRel
import Verif.Props.Depth
import Verif.Props.Gamma
import Verif.Props.Columns
import Verif.Props.Equivariance
import Verif.Props.Listed
import Verif.Props.StopOnly
import Verif.Props.Ignored
import Verif.Model.WriteBest
import Verif.Props.WriteBest
import Verif.Props.SearchFixed
import Verif.Props.Resave
import Verif.Props.TextExact
import Verif.Spec.Rules
import Verif.Props.Printed
import Verif.Model.Strings
import Verif.Props.Strings
import Verif.Lemmas.B64Near
import Verif.Props.Apart
import Verif.Lemmas.B64Err
import Verif.Lemmas.B64Gain
import Verif.Lemmas.B64Scan
import Verif.Props.NearBest
import Verif.Lemmas.RowOrder
import Verif.Lemmas.Repeat
import Verif.Lemmas.TwoClass
import Verif.Props.RowOrder
import Verif.Lemmas.B64Soft
import Verif.Props.SoftFloat
import Verif.Props.ScoreFloat
import Verif.Props.LossFloat
import Verif.Lemmas.FloatTrain
import Verif.Props.TrainFloat
import Verif.Lemmas.LogLoss
import Verif.Props.LogLoss
import Verif.Lemmas.Memorize
import Verif.Props.Memorize
import Verif.Lemmas.ColOrder
import Verif.Props.ColOrder
import Verif.Model.Print
import Verif.Props.Print
import Verif.Lemmas.Separable
import Verif.Props.Separable
import Verif.Props.Size
import Verif.Props.Range
import Verif.Lemmas.Bounded
import Verif.Props.Confidence
import Verif.Props.SearchCost
import Verif.Props.ErrorRate
import Verif.Model.GradChan
import Verif.Props.GradChan
import Verif.Props.SampleProb
import Verif.Lemmas.FoldPerm
import Verif.Props.FoldProb
import Verif.Lemmas.Calibration
import Verif.Props.Calibration
import Verif.Lemmas.Additive
import Verif.Props.Additive
import Verif.Lemmas.Stump
import Verif.Props.Stump
import Verif.Props.GridSize
import Verif.Spec.Csv
import Verif.Props.CsvGrammar
import Verif.Model.Serve
import Verif.Props.Serve
import Verif.Props.ServeTrained
import Verif.Props.ImportanceSum
import Verif.Props.ImportanceModel
import Verif.Props.Robust
import Verif.Props.NormDense
import Verif.Props.Climb
import Verif.Props.Unseen
import Verif.Props.SumOrder
import Verif.Props.IntWrap
import Verif.Props.SvmGrammar
import Verif.Props.DefaultTree
import Verif.Lemmas.MemorizeFloat
import Verif.Props.MemorizeFloat
import Verif.Lemmas.SaveFloat
import Verif.Props.SaveFloat
import Verif.Props.BasicUse
import Verif.Lemmas.Locality
import Verif.Props.Undrawn
import Verif.Props.GridUse
import Verif.Props.GradUse
import Verif.Props.BasicProb
import Verif.Lemmas.Mem
import Verif.Lemmas.MemTree
import Verif.Lemmas.MemDense
import Verif.Lemmas.MemTrain
import Verif.Lemmas.MemModel
import Verif.Props.Mem
import Verif.Lemmas.MemCV
import Verif.Props.MemCV
import Verif.Props.MemConc
import Verif.Props.Honest
import Verif.Props.DeepLimit
import Verif.Lemmas.Units
import Verif.Lemmas.B64Scale
import Verif.Props.Units
import Verif.Spec.EarlyRun
import Verif.Lemmas.EarlyRun
import Verif.Lemmas.RunAgree
import Verif.Props.EarlyRun
import Verif.Props.ColOrderStop
import Verif.Props.Regularize
import Verif.Props.Repeat
import Verif.Model.JsonText
import Verif.Spec.Json
import Verif.Lemmas.JsonText
import Verif.Lemmas.JsonCodec
import Verif.Props.JsonText
import Verif.Props.Pool
import Verif.Lemmas.OneLabel
import Verif.Props.OneLabel
import Verif.Props.Verbose
import Verif.Props.VerboseCV
import Verif.Props.LogCV
import Verif.Props.Example
import Verif.Props.CVOneLabel
import Verif.Model.ExampleText
import Verif.Props.ExampleText
import Verif.Props.NoSplit
import Verif.Props.NoSplitLimit
import Verif.Props.Reversed
import Verif.Props.ReversedModel
import Verif.Props.Mirror
import Verif.Props.MirrorModel
