import Verif.Base
import Verif.Graph.Props
import Verif.Graph.CycleProps
import Verif.Store.BlacklistProps
import Verif.Store.ReviewList
import Verif.Store.LogProps
import Verif.Store.RewardsProps
import Verif.Store.Crash
import Verif.Data.FilterProps
import Verif.Data.OptionsProps
import Verif.Scorer.Props
import Verif.Scorer.RewardProps
import Verif.Sched.UnitScorerProps
import Verif.Sched.UnitCacheProps
import Verif.Sched.ScoreInstance
import Verif.Sched.PropagatorProps
import Verif.Sched.KnockerProps
import Verif.Sched.CandidateFilterProps
import Verif.Sched.CandidateWeightProps
import Verif.Sched.ShufflerProps
import Verif.Sched.SearchProps
import Verif.Sched.SessionProps
import Verif.Sched.SystemProps
import Verif.Library.Props
import Verif.Library.ListingProps
import Verif.Library.Sample
import Verif.Library.IgnoredProps
import Verif.Library.Saved
import Verif.Library.Serial
import Verif.Gen.MusicProps
import Verif.Gen.Literacy
import Verif.Gen.LiteracyProps
import Verif.Gen.LiteracyFiles
import Verif.Gen.KnowledgeFiles
import Verif.Gen.KnowledgeProps
import Verif.Gen.TranscriptionFiles
import Verif.Gen.Dispatch
import Verif.Sched.OptionsApi
import Verif.Top.Model
import Verif.Top.Spec
import Verif.Top.Props
import Verif.Top.SessionProps
import Verif.Top.Sample
import Verif.Top.TimeProps
import Verif.Top.TimeSample
import Verif.Sched.CacheRange
import Verif.Top.App
import Verif.Top.AppProps
import Verif.Top.AppSample
import Verif.Gen.Builder
import Verif.Gen.BuilderLemmas
import Verif.Gen.BuilderProps
import Verif.Gen.BuilderCourse
import Verif.Gen.BuilderSample
import Verif.Library.Builder
import Verif.Library.BuilderProps
import Verif.Library.BuilderOpen
import Verif.Library.BuilderAssets
import Verif.Library.BuilderSample
import Verif.Graph.Dot
import Verif.Graph.DotSpec
import Verif.Graph.DotProps
import Verif.Graph.DotSample
import Verif.Top.Config
import Verif.Top.ConfigProps
import Verif.Top.ConfigSample
import Verif.Library.Assets
import Verif.Library.AssetsProps
import Verif.Conc.Locks
import Verif.Conc.Code
import Verif.Conc.Spec
import Verif.Conc.Lemmas
import Verif.Conc.StepLemmas
import Verif.Conc.Deadlock
import Verif.Conc.Cells
import Verif.Conc.Props
import Verif.Conc.Sample
import Verif.Float.Round
import Verif.Float.F32
import Verif.Float.Scorer
import Verif.Float.Interval
import Verif.Float.ScorerLemmas
import Verif.Float.Props
import Verif.Float.Rewards
import Verif.Float.RewardLemmas
import Verif.Float.RewardProps
import Verif.Float.Propagation
import Verif.Float.RewardSample
import Verif.Float.PropagationProps
import Verif.Sched.Overlay
import Verif.Sched.OverlayProps
import Verif.Top.AskProps
import Verif.Top.ScoreProps
import Verif.Top.ScoreSample
import Verif.Sched.OverlayTerm
import Verif.Top.Whole
import Verif.Top.WholeAsk
import Verif.Top.WholeSample
import Verif.Json.Text
import Verif.Json.TextLemmas
import Verif.Json.TextRound
import Verif.Json.Serde
import Verif.Json.Codes
import Verif.Json.CodesTypes
import Verif.Json.Props
import Verif.Json.Lenient
import Verif.Json.Grammar
import Verif.Json.GrammarProps
import Verif.Tree.Model
import Verif.Tree.Props
import Verif.Tree.Open
import Verif.Tree.Built
import Verif.Tree.Sample
import Verif.Tree.BuiltSample
import Verif.Tree.Saved
import Verif.Tree.Generators
import Verif.Tree.GenFiles
import Verif.Tree.Lines
import Verif.Tree.GenKnowledge
import Verif.Tree.GenLiteracy
import Verif.Tree.GenTranscription
import Verif.Tree.GenServed
import Verif.Tree.GenSample
import Verif.Tree.Whole
import Verif.Tree.WholeSample
import Verif.Sql.Syntax
import Verif.Sql.Engine
import Verif.Sql.Code
import Verif.Sql.Refine
import Verif.Sql.Steps
import Verif.Sql.Calls
import Verif.Sql.Migrations
import Verif.Sql.Open
import Verif.Sql.Histories
import Verif.Sql.Lists
import Verif.Sql.Old
import Verif.Sql.Props
import Verif.Sql.Samples
import Verif.Bench.Model
import Verif.Bench.Spec
import Verif.Bench.Runs
import Verif.Bench.Props
import Verif.Bench.Library
import Verif.Bench.Sample
import Verif.Graph.CallProps
import Verif.Scorer.FormulaSpec
import Verif.Scorer.Formula
import Verif.Library.BuiltLibrary
import Verif.Library.BuildSucceeds
import Verif.TestLib.Model
import Verif.TestLib.Ids
import Verif.TestLib.Builders
import Verif.TestLib.Props
import Verif.TestLib.Random
import Verif.TestLib.Simulation
import Verif.TestLib.SimLibrary
import Verif.TestLib.Sample
import Verif.Top.GradeFormula
import Verif.Tree.Session
import Verif.Float.SharesProps
import Verif.Library.Alike
import Verif.Tree.Moved
import Verif.Tree.MovedProps
import Verif.Tree.MovedPractice
import Verif.Tree.Copy
import Verif.Tree.CopySample
import Verif.Library.Shuffle
import Verif.Library.ShuffleProps
import Verif.Gen.Shuffle
import Verif.Tree.Listed
import Verif.Tree.ListedSample
import Verif.Sched.ScoreOrder
import Verif.Sched.ScoreOrderProps
import Verif.Library.ShuffleScores
import Verif.Tree.ListedScores
import Verif.Float.OrderSample
import Verif.Float.OrderProps
import Verif.Sched.ProgressSpec
import Verif.Sched.ProgressProps
import Verif.Sched.ProgressScores
import Verif.Sched.ProgressSample
import Verif.Sched.ProgressLocks
import Verif.Library.ProgressProps
import Verif.Top.ProgressProps
import Verif.Top.ProgressSample
import Verif.Sched.OfferOrder
import Verif.Sched.OfferOrderProps
import Verif.Sched.OfferOrderSample
import Verif.Top.OfferOrder
import Verif.Top.OfferOrderProps
import Verif.Sched.Touches
import Verif.Sched.TouchesOrder
import Verif.Store.RewardsOrder
import Verif.Top.SameHistory
import Verif.Top.SameHistoryProps
import Verif.Top.SameHistorySample
import Verif.Scorer.SpacingProps
import Verif.Scorer.LaterProps
import Verif.Store.Later
import Verif.Sched.Later
import Verif.Top.LaterProps
import Verif.Scorer.FivesProps
import Verif.Top.FivesLemmas
import Verif.Top.FivesCaches
import Verif.Top.FivesProps
import Verif.Top.FivesSample
import Verif.Sched.CoherentAnswers
import Verif.Top.DiligentLemmas
import Verif.Top.DiligentProps
import Verif.Top.DiligentSample
import Verif.Store.Prune
import Verif.Top.TidySpec
import Verif.Top.TidyLemmas
import Verif.Top.TidyProps
import Verif.Sched.Separate
import Verif.Sched.SeparateFrame
import Verif.Store.Separate
import Verif.Top.SeparateSpec
import Verif.Top.SeparateLemmas
import Verif.Top.SeparateProps
import Verif.Top.AnewSpec
import Verif.Top.AnewProps
import Verif.Top.OnlyProps
import Verif.Conc.SharedBlacklistProps
import Verif.Conc.GradingProps
import Verif.Top.CrashProps
import Verif.Top.SiteSample
import Verif.Float.VelocityProps
import Verif.Float.AverageProps
import Verif.Float.ReplayProps
import Verif.Float.FinalProps
import Verif.Float.MeanProps
import Verif.Float.CostLemmas
import Verif.Float.CostProps
import Verif.Float.Portion
import Verif.Float.PortionProps
import Verif.Float.TrialsProps
import Verif.Float.QuotaProps
import Verif.Float.GroupProps
import Verif.Float.AlongProps
import Verif.Float.UnlockProps
import Verif.Conform.Graph
import Verif.Conform.Stores
import Verif.Conform.Filters
import Verif.Conform.Sched
import Verif.Conform.Scorer
import Verif.Conform.Units
