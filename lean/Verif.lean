import Verif.Cache.GlobPath
import Verif.Cache.GlobProps
import Verif.Cache.Handle
import Verif.Cache.HandleProps
import Verif.Cache.Lifecycle
import Verif.Cache.LifecycleProps
import Verif.Cache.Paginate
import Verif.Cache.PaginateProps
import Verif.Cache.Reader
import Verif.Cache.ReaderProps
import Verif.Cache.SizeProps
import Verif.Cache.Sort
import Verif.Cache.SortLemmas
import Verif.Cache.SortProps
import Verif.Cache.Writer
import Verif.Cache.WriterLemmas
import Verif.Cache.WriterProps
import Verif.Classification.AgreeProps
import Verif.Classification.BetweenProps
import Verif.Classification.CoarserF1Props
import Verif.Classification.CoarserProps
import Verif.Classification.ColumnProps
import Verif.Classification.ComposeProps
import Verif.Classification.CopiesProps
import Verif.Classification.Counts
import Verif.Classification.CountsLemmas
import Verif.Classification.CountsProps
import Verif.Classification.DatumExamplesProps
import Verif.Classification.DatumReportProps
import Verif.Classification.ExProps
import Verif.Classification.ExamplesProps
import Verif.Classification.Filter
import Verif.Classification.FilterProps
import Verif.Classification.FilteredProps
import Verif.Classification.Interrupted
import Verif.Classification.Loader
import Verif.Classification.LoaderLemmas
import Verif.Classification.LoaderProps
import Verif.Classification.MetricKeyProps
import Verif.Classification.Metrics
import Verif.Classification.MetricsProps
import Verif.Classification.MicroProps
import Verif.Classification.MirrorProps
import Verif.Classification.MonotoneProps
import Verif.Classification.OneMoreProps
import Verif.Classification.OneMoreRocProps
import Verif.Classification.OneSidedProps
import Verif.Classification.OnlyMean
import Verif.Classification.OnlyProps
import Verif.Classification.OnlyRoc
import Verif.Classification.OrderProps
import Verif.Classification.PageProps
import Verif.Classification.Pairs
import Verif.Classification.PairsLemmas
import Verif.Classification.PairsProps
import Verif.Classification.PerfectProps
import Verif.Classification.PerfectRocProps
import Verif.Classification.PreviewProps
import Verif.Classification.RaiseProps
import Verif.Classification.RecallExactProps
import Verif.Classification.RefusedProps
import Verif.Classification.ReloadProps
import Verif.Classification.Report
import Verif.Classification.ReportExamples
import Verif.Classification.ReportExamplesProps
import Verif.Classification.ReportProps
import Verif.Classification.ReportedProps
import Verif.Classification.RescaleProps
import Verif.Classification.RetryProps
import Verif.Classification.Roc
import Verif.Classification.RocArea
import Verif.Classification.RocCutProps
import Verif.Classification.RocLemmas
import Verif.Classification.RocProps
import Verif.Classification.RocRangeProps
import Verif.Classification.RocUnscoredProps
import Verif.Classification.RocUntiedProps
import Verif.Classification.RocZeroProps
import Verif.Classification.ShardProps
import Verif.Classification.SharperF1Props
import Verif.Classification.SharperProps
import Verif.Classification.ThresholdOnlyProps
import Verif.Classification.ThresholdProps
import Verif.Detection.AddData
import Verif.Detection.AddDataProps
import Verif.Detection.AddedProps
import Verif.Detection.Agree
import Verif.Detection.ApProps
import Verif.Detection.AverageProps
import Verif.Detection.BetweenProps
import Verif.Detection.BlankProps
import Verif.Detection.CmDivision
import Verif.Detection.CmExLemmas
import Verif.Detection.CmExampleProps
import Verif.Detection.CmProps
import Verif.Detection.CmReport
import Verif.Detection.CmReportProps
import Verif.Detection.ColumnProps
import Verif.Detection.ComposeProps
import Verif.Detection.CopiesProps
import Verif.Detection.Counts
import Verif.Detection.CountsProps
import Verif.Detection.CurveProps
import Verif.Detection.DatumReport
import Verif.Detection.DivisionEndToEnd
import Verif.Detection.DivisionProps
import Verif.Detection.EndToEnd
import Verif.Detection.ExEntry
import Verif.Detection.ExLemmas
import Verif.Detection.ExampleProps
import Verif.Detection.Examples
import Verif.Detection.F1Props
import Verif.Detection.Filter
import Verif.Detection.FilterProps
import Verif.Detection.FloatIdProps
import Verif.Detection.GeometryProps
import Verif.Detection.Held
import Verif.Detection.InfoProps
import Verif.Detection.Interrupted
import Verif.Detection.Iou
import Verif.Detection.IouProps
import Verif.Detection.LabelProps
import Verif.Detection.LimitProps
import Verif.Detection.Loader
import Verif.Detection.LoaderProps
import Verif.Detection.MatrixProps
import Verif.Detection.MetricDict
import Verif.Detection.MonotoneProps
import Verif.Detection.NearestProps
import Verif.Detection.NewHitProps
import Verif.Detection.OneMoreProps
import Verif.Detection.OneSidedProps
import Verif.Detection.OnlyCurve
import Verif.Detection.OnlyMatrix
import Verif.Detection.OnlyOrder
import Verif.Detection.OnlyProps
import Verif.Detection.OnlyReport
import Verif.Detection.OnlyRows
import Verif.Detection.OperatingPoints
import Verif.Detection.Pairs
import Verif.Detection.PairsProps
import Verif.Detection.PerfectProps
import Verif.Detection.PreviewProps
import Verif.Detection.Rank
import Verif.Detection.RankLemmas
import Verif.Detection.RankProps
import Verif.Detection.RefusedProps
import Verif.Detection.Regroup
import Verif.Detection.ReloadProps
import Verif.Detection.Rename
import Verif.Detection.RenamedReport
import Verif.Detection.Reorder
import Verif.Detection.ReorderLoader
import Verif.Detection.ReorderProps
import Verif.Detection.Report
import Verif.Detection.ReportLemmas
import Verif.Detection.ReportMetrics
import Verif.Detection.ReportProps
import Verif.Detection.RescaleProps
import Verif.Detection.ScoreCurve
import Verif.Detection.ShardProps
import Verif.Detection.SharperProps
import Verif.Detection.ThresholdOnlyProps
import Verif.Detection.ThresholdProps
import Verif.Detection.TighterProps
import Verif.Detection.WithoutProps
import Verif.Float.Curve
import Verif.Float.Decide
import Verif.Float.Margin
import Verif.Float.Metrics
import Verif.Float.MetricsProps
import Verif.Float.Roc
import Verif.Float.RocProps
import Verif.Float.Sums
import Verif.Segmentation.BetweenProps
import Verif.Segmentation.BlankProps
import Verif.Segmentation.ColumnProps
import Verif.Segmentation.ComposeProps
import Verif.Segmentation.Construct
import Verif.Segmentation.ConstructProps
import Verif.Segmentation.CorrectProps
import Verif.Segmentation.CountsProps
import Verif.Segmentation.ExchangeProps
import Verif.Segmentation.FilterProps
import Verif.Segmentation.Held
import Verif.Segmentation.HistProps
import Verif.Segmentation.Interrupted
import Verif.Segmentation.LoaderProps
import Verif.Segmentation.Mask
import Verif.Segmentation.MaskProps
import Verif.Segmentation.MergeProps
import Verif.Segmentation.MetricKeyProps
import Verif.Segmentation.MetricsProps
import Verif.Segmentation.Model
import Verif.Segmentation.OneMoreProps
import Verif.Segmentation.OneSidedProps
import Verif.Segmentation.OnlyProps
import Verif.Segmentation.OrderProps
import Verif.Segmentation.PerfectProps
import Verif.Segmentation.PreviewProps
import Verif.Segmentation.RefusedProps
import Verif.Segmentation.ReloadProps
import Verif.Segmentation.Report
import Verif.Segmentation.ReportProps
import Verif.Segmentation.RescaleProps
import Verif.Segmentation.ShardProps
import Verif.Segmentation.WeightedProps
import Verif.Shared.Columns
import Verif.Shared.Dict
import Verif.Shared.Double
import Verif.Shared.Interrupted
import Verif.Shared.InterruptedProps
import Verif.Shared.LabelKeys
import Verif.Shared.Labels
import Verif.Shared.Metadata
import Verif.Shared.MetadataProps
import Verif.Shared.OverrideProps
import Verif.Shared.Rounding
import Verif.TextGen.Bleu
import Verif.TextGen.BleuProps
import Verif.TextGen.CostProps
import Verif.TextGen.CrashProps
import Verif.TextGen.ExampleProps
import Verif.TextGen.GuidedProps
import Verif.TextGen.Json
import Verif.TextGen.JsonProps
import Verif.TextGen.Model
import Verif.TextGen.PrecisionProps
import Verif.TextGen.Prompt
import Verif.TextGen.PromptProps
import Verif.TextGen.Reported
import Verif.TextGen.Repr
import Verif.TextGen.ReprProps
import Verif.TextGen.RetriesProps
import Verif.TextGen.Samples
import Verif.TextGen.ScoreProps
import Verif.TextGen.SteadyProps
import Verif.TextGen.Text
import Verif.TextGen.TextProps
