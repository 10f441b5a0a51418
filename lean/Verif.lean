import Verif.Model.Py
import Verif.Model.Num
import Verif.Model.PDCalc
import Verif.Model.Ops
import Verif.Model.PdpMethod
import Verif.Model.Additivity
import Verif.Model.Perf
import Verif.Model.PdImportance
import Verif.Model.CMD
import Verif.Spec.PD
import Verif.Spec.Decomp
import Verif.Spec.Perf
import Verif.Proofs.Basics
import Verif.Proofs.PDCalcEngine
import Verif.Proofs.PDCalcFam
import Verif.Proofs.PDCalcHist
import Verif.Proofs.PDCalcObs
import Verif.Proofs.ShapeAny
import Verif.Proofs.NumLemmas
import Verif.Proofs.PDFit
import Verif.Proofs.FitSpec
import Verif.Proofs.HLemmas
import Verif.Proofs.GwLemmas
import Verif.Proofs.AddLemmas
import Verif.Proofs.PerfLemmas
import Verif.Proofs.TreeLemmas
import Verif.Proofs.BfsLemmas
import Verif.Proofs.CmdLemmas
import Verif.Proofs.CmdForest
import Verif.Examples.PDData
import Verif.Examples.FitData
import Verif.Props.PD
import Verif.Props.PDCache
import Verif.Props.HStat
import Verif.Props.Greenwell
import Verif.Props.Additivity
import Verif.Props.Metrics
import Verif.Props.PermImp
import Verif.Props.Sejong
import Verif.Props.PdImportance
import Verif.Spec.Spread
import Verif.Spec.Trees
import Verif.Props.Formulas
import Verif.Props.Predict
import Verif.Props.CMD
import Verif.Model.SplitScore
import Verif.Spec.Gb
import Verif.Proofs.GbLemmas
import Verif.Proofs.GbForest
import Verif.Proofs.GbSummary
import Verif.Proofs.GbImportance
import Verif.Props.SplitScore
import Verif.Model.Visual
import Verif.Model.Method
import Verif.Spec.History
import Verif.Proofs.Lifecycle
import Verif.Props.Lifecycle
import Verif.Model.Comparator
import Verif.Proofs.CorrLemmas
import Verif.Props.Comparator
import Verif.Proofs.VisLemmas
import Verif.Props.Visual
import Verif.Props.Heatmap
import Verif.Props.Summary
import Verif.Props.Drawable
import Verif.Model.Zenplot
import Verif.Proofs.ZenLemmas
import Verif.Proofs.ZenPd
import Verif.Props.Zenplot
import Verif.Props.PlotFit
import Verif.Spec.Recode
import Verif.Proofs.RecodeLemmas
import Verif.Props.Invariance
import Verif.Spec.SameForest
import Verif.Proofs.SameForest
import Verif.Proofs.AnyNumbering
import Verif.Props.Forests
import Verif.Spec.SameBoosted
import Verif.Proofs.SameBoosted
import Verif.Props.BoostedForests
import Verif.Model.PdpVis
import Verif.Props.PdpVis
import Verif.Props.Sampling
import Verif.Props.Shares
import Verif.Props.Sizes
import Verif.Props.PDCost
import Verif.Props.FitCost
import Verif.Props.Stream
import Verif.Props.Zero
import Verif.Props.Sharing
import Verif.Props.Ensemble
import Verif.Props.Undefined
import Verif.Proofs.PerfNum
import Verif.Props.UndefinedScores
import Verif.Spec.Mixes
import Verif.Proofs.TwinLemmas
import Verif.Props.Locality
import Verif.Model.Missing
import Verif.Proofs.Hoare
import Verif.Proofs.MissingLemmas
import Verif.Proofs.PerfReturns
import Verif.Spec.Missing
import Verif.Props.Missing
import Verif.Model.AdditivitySteps
import Verif.Props.AddSteps
import Verif.Props.Labels
import Verif.Model.Keywords
import Verif.Proofs.KeywordLemmas
import Verif.Props.Keywords
import Verif.Props.Limits
import Verif.Model.VisHeap
import Verif.Props.VisHeap
import Verif.Model.VisNames
import Verif.Props.VisNames
import Verif.Proofs.NumAdequate
import Verif.Props.Tight
import Verif.Props.WrongLength
import Verif.Proofs.KeyedLemmas
import Verif.Props.Requests
import Verif.Model.Colours
import Verif.Props.Colours
import Verif.Model.DataHeap
import Verif.Props.DataHeap
import Verif.Model.Handles
import Verif.Proofs.HandleLemmas
import Verif.Props.Handles
import Verif.Model.PdHeap
import Verif.Proofs.PdHeapLemmas
import Verif.Props.PdHeap
import Verif.Props.Stability
import Verif.Props.UnusedCols
import Verif.Props.Rounds
import Verif.Props.MoreTrees
import Verif.Props.Agreement
import Verif.Props.Accounts
import Verif.Props.Factorial
import Verif.Props.Covers
import Verif.Props.Rankings
import Verif.Model.Rounded
import Verif.Spec.Rounding
import Verif.Proofs.RoundLemmas
import Verif.Proofs.RoundErrors
import Verif.Proofs.RoundTables
import Verif.Proofs.Binary64
import Verif.Props.Rounding
import Verif.Model.RoundedGreenwell
import Verif.Props.RoundedGreenwell
import Verif.Model.RoundedAdditivity
import Verif.Props.RoundedAdditivity
import Verif.Props.RoundedGreenwellTables
import Verif.Props.RoundedPerf
import Verif.Proofs.RoundExact
import Verif.Model.RoundedTrees
import Verif.Proofs.RoundTrees
import Verif.Props.RoundedTrees
import Verif.Model.RoundedSplit
import Verif.Spec.RoundedSplit
import Verif.Proofs.RoundKahan
import Verif.Proofs.RoundSplitNum
import Verif.Proofs.RoundSplit
import Verif.Props.RoundedSplit
import Verif.Model.RoundedVis
import Verif.Spec.RoundedVis
import Verif.Proofs.Round64Order
import Verif.Proofs.RoundVis
import Verif.Props.RoundedVis
import Verif.Props.OneEdge
import Verif.Model.RoundedHeat
import Verif.Spec.HeatScore
import Verif.Proofs.RoundHeat
import Verif.Props.RoundedHeat
import Verif.Props.RoundedCmdGraph
import Verif.Model.CmpLabels
import Verif.Spec.CmpLabels
import Verif.Props.CmpLabels
import Verif.Model.EdgeTexts
import Verif.Props.EdgeTexts
import Verif.Props.SelfCompare
import Verif.Model.RoundedCompare
import Verif.Proofs.CompareGroups
import Verif.Props.RoundedCompare
import Verif.Props.Symmetry
import Verif.Props.ClosedForms
import Verif.Model.HandlerObj
import Verif.Props.HandlerObj
import Verif.Props.ClosedShares
import Verif.Model.CmdObj
import Verif.Props.CmdObj
import Verif.Props.SplitErrors
import Verif.Props.SummaryOptions
import Verif.Props.UnusedSplits
import Verif.Props.Stunted
import Verif.Props.UndefinedPerm
import Verif.Props.HandleWrites
import Verif.Props.LabelFit
import Verif.Props.StaleImportance
import Verif.Props.OrderFit
import Verif.Props.WidthsFit
import Verif.Props.SuppliedLimits
import Verif.Props.SuppliedMixes
import Verif.Props.SuppliedImportance
import Verif.Props.AccuracyAnyPredictions
import Verif.Props.AcceptedAnyModel
import Verif.Props.AcceptedAdditivity
import Verif.Props.RecordsAnyModel
import Verif.Axioms
