import Verif.Props.FFA
import Verif.Props.Memory
import Verif.Props.Float
import Verif.Props.Snr
import Verif.Props.Downsample
import Verif.Props.Periodogram
import Verif.Props.Trials
import Verif.Props.RunningMedian
import Verif.Props.Peaks
import Verif.Props.Dm
import Verif.Props.Ranges
import Verif.Props.TimeSeries
import Verif.Props.Fold
import Verif.Props.Search
import Verif.Model.Harmonics
import Verif.Model.Pipeline
import Verif.Spec.Csv
import Verif.Spec.Harmonics
import Verif.Lemmas.Harmonics
import Verif.Lemmas.Pipeline
import Verif.Props.Harmonics
import Verif.Props.Pipeline
import Verif.Props.Candidates
import Verif.Props.Pool
import Verif.Model.PyVal
import Verif.Model.Sigproc
import Verif.Model.Metadata
import Verif.Spec.Sigproc
import Verif.Lemmas.Sigproc
import Verif.Props.Sigproc
import Verif.Props.Metadata
import Verif.Model.Presto
import Verif.Spec.Presto
import Verif.Lemmas.Presto
import Verif.Props.Presto
import Verif.Model.Json
import Verif.Spec.Json
import Verif.Props.Json
import Verif.Model.Config
import Verif.Spec.Config
import Verif.Props.Config
import Verif.Props.Trend
import Verif.Model.ClusterTable
import Verif.Props.ClusterTable
import Verif.Model.Process
import Verif.Props.Process
import Verif.Model.Candidate
import Verif.Props.Candidate
import Verif.Model.Worker
import Verif.Model.WorkerNan
import Verif.Props.Worker
import Verif.Props.WorkerNan
import Verif.Model.PeriodogramF
import Verif.Spec.Double
import Verif.Lemmas.PeriodogramF
import Verif.Lemmas.SearchF
import Verif.Lemmas.LabelF
import Verif.Lemmas.Double
import Verif.Props.Double
import Verif.Lemmas.Energy
import Verif.Props.Detection
import Verif.Model.Rseek
import Verif.Props.Resolution
import Verif.Props.Rseek
import Verif.Model.Generate
import Verif.Props.Generate
import Verif.Model.WorkerConf
import Verif.Props.WorkerConf
import Verif.Model.SnrF
import Verif.Spec.Float
import Verif.Lemmas.Rounding
import Verif.Lemmas.SnrF
import Verif.Lemmas.TrialF
import Verif.Props.SnrF
import Verif.Lemmas.Stability
import Verif.Props.Noise
import Verif.Props.Profile
import Verif.Model.Fit
import Verif.Lemmas.Fit
import Verif.Lemmas.PeaksT
import Verif.Props.Units
import Verif.Props.DmCover
import Verif.Model.Prepare
import Verif.Props.Prepare
import Verif.Props.AnyPeriod
import Verif.Props.Breakdown
import Verif.Props.EndToEnd
import Verif.Model.Aliasing
import Verif.Props.Aliasing
import Verif.Model.PipelineRun
import Verif.Model.PipelineConf
import Verif.Props.PipelineRun
import Verif.Props.PipelineConf
import Verif.Model.PipelineFiles
import Verif.Model.Products
import Verif.Props.PipelineFiles
import Verif.Props.Products
import Verif.Model.Saving
import Verif.Props.Saving
import Verif.Model.RseekFiles
import Verif.Props.RseekFiles
import Verif.Props.Dispersed
import Verif.Spec.JsonGrammar
import Verif.Model.JsonText
import Verif.Lemmas.JsonText
import Verif.Lemmas.JsonScan
import Verif.Props.JsonText
import Verif.Model.Layout
import Verif.Props.Layout
import Verif.Spec.Decimal
import Verif.Model.Yaml
import Verif.Spec.Yaml
import Verif.Lemmas.Yaml
import Verif.Props.Yaml
import Verif.Model.Nan
import Verif.Spec.Nan
import Verif.Lemmas.AnyOrder
import Verif.Lemmas.Nan
import Verif.Props.Nan
import Verif.Model.SearchFloat
import Verif.Spec.SearchFloat
import Verif.Lemmas.Window
import Verif.Lemmas.SearchFloat
import Verif.Props.SearchFloat
import Verif.Lemmas.GridF
import Verif.Props.GridF
import Verif.Model.Figures
import Verif.Model.Rffa
import Verif.Props.Figures
import Verif.Props.RffaReads
import Verif.Props.Rffa
import Verif.Model.NormaliseF
import Verif.Lemmas.NormaliseF
import Verif.Props.NormaliseF
import Verif.Model.DereddenF
import Verif.Lemmas.DereddenF
import Verif.Props.DereddenF
import Verif.Model.PeaksF
import Verif.Lemmas.PeaksF
import Verif.Props.PeaksF
import Verif.Props.ClusterF
import Verif.Model.FoldF
import Verif.Props.FoldF
import Verif.Props.FoldAcc
import Verif.Model.HarmonicsF
import Verif.Spec.HarmonicsF
import Verif.Props.HarmonicsF
import Verif.Model.DmF
import Verif.Props.DmF
import Verif.Model.TrialsF
import Verif.Props.TrialsF
import Verif.Model.PipelineF
import Verif.Props.SegmentsF
import Verif.Props.PipelineF
import Verif.Spec.FloatBits
import Verif.Spec.CandFile
import Verif.Model.CandFile
import Verif.Props.CandFile
import Verif.Props.CandRun
import Verif.Model.Samples
import Verif.Spec.Samples
import Verif.Props.Samples
import Verif.Spec.Overflow
import Verif.Props.Overflow
import Verif.Model.Cost
import Verif.Props.Cost
import Verif.Props.FileOrder
import Verif.Props.LongerRange
import Verif.Props.FewerFiles
import Verif.Props.Repeat
import Verif.Props.Processes
import Verif.Props.ConfOrder
import Verif.Props.ConfDefaults
import Verif.Props.FilterRuns
import Verif.Props.PlotOption
import Verif.Props.Radius
