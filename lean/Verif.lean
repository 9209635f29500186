import Verif.Data.Alias
import Verif.Data.AliasCurrent
import Verif.Data.AliasProps
import Verif.Data.Construct
import Verif.Data.DropZeros
import Verif.Data.DropZerosProps
import Verif.Data.Fwhm
import Verif.Data.FwhmProps
import Verif.Data.Group
import Verif.Data.GroupExamples
import Verif.Data.GroupLemmas
import Verif.Data.GroupProps
import Verif.Data.GroupSeg
import Verif.Data.GroupSeg2
import Verif.Data.Load
import Verif.Data.LoadExamples
import Verif.Data.LoadProps
import Verif.Data.Obs
import Verif.Data.ObsExamples
import Verif.Data.ObsLemmas
import Verif.Data.ObsProps
import Verif.Data.ObsSpec
import Verif.Data.Ogip
import Verif.Data.OgipProps
import Verif.Data.OgipSpec
import Verif.Data.PlotSpec
import Verif.Data.PlotSpecProps
import Verif.Data.SpecWarn
import Verif.Data.SpecWarnProps
import Verif.Data.Units
import Verif.Grouping.Binning
import Verif.Grouping.BinningFormula
import Verif.Grouping.FlagLemmas
import Verif.Grouping.Float
import Verif.Grouping.FloatErrorProps
import Verif.Grouping.FloatGv
import Verif.Grouping.FloatGvErrorProps
import Verif.Grouping.FloatGvNearProps
import Verif.Grouping.FloatGvProps
import Verif.Grouping.FloatLima
import Verif.Grouping.FloatLimaProps
import Verif.Grouping.FloatNormal
import Verif.Grouping.FloatNormalProps
import Verif.Grouping.FloatOptSignif
import Verif.Grouping.FloatOptSignifProps
import Verif.Grouping.FloatOptsig
import Verif.Grouping.FloatOptsigProps
import Verif.Grouping.FloatPrefix
import Verif.Grouping.FloatPrefixProps
import Verif.Grouping.FloatProps
import Verif.Grouping.FloatRatioProps
import Verif.Grouping.FloatScaleProps
import Verif.Grouping.FloatSignif
import Verif.Grouping.FloatSignifProps
import Verif.Grouping.Lemmas
import Verif.Grouping.Model
import Verif.Grouping.OptLemmas
import Verif.Grouping.Optimal
import Verif.Grouping.Props
import Verif.Grouping.Scale
import Verif.Grouping.ScaleLemmas
import Verif.Grouping.ScaleProps
import Verif.Grouping.ScaleSpec
import Verif.Grouping.SigLemmas
import Verif.Grouping.SigProps
import Verif.Grouping.SigValue
import Verif.Grouping.Signif
import Verif.Grouping.Spec
import Verif.Infer.BalanceProps
import Verif.Infer.Batch
import Verif.Infer.BatchProps
import Verif.Infer.ConvexProps
import Verif.Infer.Covar
import Verif.Infer.CovarProps
import Verif.Infer.Credible
import Verif.Infer.CredibleProps
import Verif.Infer.EndToEndExamples
import Verif.Infer.EndToEndFlux
import Verif.Infer.EndToEndLemmas
import Verif.Infer.EndToEndProps
import Verif.Infer.EndToEndSpec
import Verif.Infer.Ensemble
import Verif.Infer.EnsembleProps
import Verif.Infer.Evidence
import Verif.Infer.EvidenceProps
import Verif.Infer.ExistProps
import Verif.Infer.Fit
import Verif.Infer.FitFlux
import Verif.Infer.FitFluxProps
import Verif.Infer.FitProps
import Verif.Infer.FloatChi
import Verif.Infer.FloatChiProps
import Verif.Infer.FloatFold
import Verif.Infer.FloatFoldProps
import Verif.Infer.FloatPg
import Verif.Infer.FloatPgProps
import Verif.Infer.FloatPoisson
import Verif.Infer.FloatPoissonProps
import Verif.Infer.FloatStat
import Verif.Infer.FloatStatProps
import Verif.Infer.FloatW
import Verif.Infer.FloatWProps
import Verif.Infer.FloatWStatProps
import Verif.Infer.GradProps
import Verif.Infer.IData
import Verif.Infer.IDataProps
import Verif.Infer.IgnoreProps
import Verif.Infer.Intensity
import Verif.Infer.IntensityProps
import Verif.Infer.Kernel
import Verif.Infer.KernelProps
import Verif.Infer.Level
import Verif.Infer.LevelProps
import Verif.Infer.LikProps
import Verif.Infer.LikSpec
import Verif.Infer.Likelihood
import Verif.Infer.LimitProps
import Verif.Infer.LongerProps
import Verif.Infer.LooPit
import Verif.Infer.LooPitProps
import Verif.Infer.MaxLike
import Verif.Infer.MaxLikeProps
import Verif.Infer.MergeExamples
import Verif.Infer.MergeProps
import Verif.Infer.NestedPrior
import Verif.Infer.NestedPriorProps
import Verif.Infer.OrderProps
import Verif.Infer.Params
import Verif.Infer.ParamsProps
import Verif.Infer.PostIntensity
import Verif.Infer.PostIntensityProps
import Verif.Infer.Posterior
import Verif.Infer.PosteriorProps
import Verif.Infer.Process
import Verif.Infer.ProcessProps
import Verif.Infer.Profile
import Verif.Infer.ProfileProps
import Verif.Infer.RefineProps
import Verif.Infer.RefusalProps
import Verif.Infer.Resample
import Verif.Infer.ResampleProps
import Verif.Infer.Sim
import Verif.Infer.SimObs
import Verif.Infer.SimObsExamples
import Verif.Infer.SimObsProps
import Verif.Infer.SimProps
import Verif.Infer.Sites
import Verif.Infer.SitesProps
import Verif.Infer.StackProps
import Verif.Infer.StatProps
import Verif.Infer.Store
import Verif.Infer.StoreProps
import Verif.Infer.Summary
import Verif.Infer.SummaryProps
import Verif.Infer.Tables
import Verif.Infer.TablesProps
import Verif.Infer.TestLevelProps
import Verif.Infer.UniqueProps
import Verif.Infer.Waic
import Verif.Infer.WaicProps
import Verif.Infer.Walk
import Verif.Infer.WalkProps
import Verif.Models.Algebra
import Verif.Models.AlgebraProps
import Verif.Models.BandProps
import Verif.Models.Batch
import Verif.Models.BatchProps
import Verif.Models.Catalogue
import Verif.Models.CatalogueProps
import Verif.Models.CompileProps
import Verif.Models.Construct
import Verif.Models.ConstructProps
import Verif.Models.Density
import Verif.Models.DensityProps
import Verif.Models.DocProps
import Verif.Models.EvalProps
import Verif.Models.FloatPower
import Verif.Models.FloatPowerProps
import Verif.Models.Info
import Verif.Models.InfoProps
import Verif.Models.Interval
import Verif.Models.IntervalProps
import Verif.Models.Label
import Verif.Models.LabelProps
import Verif.Models.Line
import Verif.Models.LineProps
import Verif.Models.ModelLabel
import Verif.Models.ModelLabelProps
import Verif.Models.Mul
import Verif.Models.MulProps
import Verif.Models.NestProps
import Verif.Models.OffProps
import Verif.Models.OrderProps
import Verif.Models.Param
import Verif.Models.ParamProps
import Verif.Models.Protect
import Verif.Models.ProtectProps
import Verif.Models.QuadProps
import Verif.Models.Settings
import Verif.Models.SettingsProps
import Verif.Models.ShapeProps
import Verif.Models.ShiftProps
import Verif.Models.Slot
import Verif.Models.SlotProps
import Verif.Models.Spectra
import Verif.Models.SpectraProps
import Verif.Models.Tracker
import Verif.Models.TrackerProps
import Verif.Models.Xspec
import Verif.Models.XspecProps
import Verif.Np
import Verif.Plot.Bands
import Verif.Plot.BandsProps
import Verif.Plot.Cache
import Verif.Plot.CacheProps
import Verif.Plot.Diag
import Verif.Plot.DiagProps
import Verif.Plot.Draw
import Verif.Plot.DrawProps
import Verif.Plot.ErrorBars
import Verif.Plot.ErrorBarsProps
import Verif.Plot.LinLog
import Verif.Plot.LinLogProps
import Verif.Plot.LooResidual
import Verif.Plot.LooResidualProps
import Verif.Plot.PearsonProps
import Verif.Plot.PitProps
import Verif.Plot.QuantRes
import Verif.Plot.QuantResProps
import Verif.Plot.Request
import Verif.Plot.RequestProps
import Verif.Plot.Residual
import Verif.Plot.ResidualProps
import Verif.Plot.RespPlot
import Verif.Plot.RespPlotProps
import Verif.Plot.Settings
import Verif.Plot.SettingsProps
import Verif.Plot.Smooth
import Verif.Plot.SmoothProps
import Verif.Plot.TickSpace
import Verif.Plot.TickSpaceProps
import Verif.Util.Config
import Verif.Util.ConfigProps
import Verif.Util.FiniteDiff
import Verif.Util.FiniteDiffProps
import Verif.Util.Namespace
import Verif.Util.NamespaceProps
import Verif.Util.Progress
import Verif.Util.ProgressProps
import Verif.Util.ReplaceStr
import Verif.Util.ReplaceStrProps
import Verif.Util.Report
import Verif.Util.ReportProps
import Verif.Util.SuffixCfg
import Verif.Util.SuffixCfgProps
import Verif.Util.UnitLabel
import Verif.Util.UnitLabelProps
