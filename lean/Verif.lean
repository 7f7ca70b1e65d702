import Verif.Py.Basic
import Verif.Py.Num
import Verif.Py.Ext
import Verif.Model.ProbabilityField
import Verif.Model.Backtrace
import Verif.Model.Capturezone
import Verif.Spec.Field
import Verif.Spec.History
import Verif.Spec.RK
import Verif.Spec.Trees
import Verif.Props.Field
import Verif.Props.Backtrace
import Verif.Lemmas.Accuracy
import Verif.Props.Accuracy
import Verif.Props.Capture
import Verif.Model.Aquifer
import Verif.Model.CoefHeap
import Verif.Spec.Aquifer
import Verif.Props.Aquifer
import Verif.Props.Fit
import Verif.Props.CoefHeap
import Verif.Py.Val
import Verif.Model.BackVelocity
import Verif.Model.Variate
import Verif.Model.Stochastic
import Verif.Props.Wells
import Verif.Props.Variate
import Verif.Spec.Run
import Verif.Props.Runs
import Verif.Model.Utilities
import Verif.Spec.Utilities
import Verif.Props.Utilities
import Verif.Model.Visualize
import Verif.Spec.Visualize
import Verif.Props.Visualize
import Verif.Model.Oneka
import Verif.Spec.Oneka
import Verif.Lemmas.Oneka
import Verif.Lemmas.Call
import Verif.Lemmas.Compute
import Verif.Lemmas.Returned
import Verif.Lemmas.Draw
import Verif.Props.Oneka
import Verif.Props.Report
import Verif.Props.Causes
import Verif.Lemmas.PropsEndless
import Verif.Props.Endless
import Verif.Spec.Reach
import Verif.Spec.RunReach
import Verif.Props.Reach
import Verif.Props.Examples
import Verif.Model.Runme
import Verif.Model.Data
import Verif.Model.DataSets
import Verif.Spec.Runme
import Verif.Spec.Causes
import Verif.Spec.Data
import Verif.Spec.CoefHeap
import Verif.Spec.Report
import Verif.Spec.Variate
import Verif.Props.Runme
import Verif.Props.RunmeExamples
import Verif.Spec.Upstream
import Verif.Lemmas.Bridge
import Verif.Lemmas.Upstream
import Verif.Props.Upstream
import Verif.Lemmas.PropsPathlines
import Verif.Props.Pathlines
import Verif.Spec.CaptureExact
import Verif.Lemmas.CaptureExact
import Verif.Props.CaptureExact
import Verif.Props.CaptureExactExamples
import Verif.Lemmas.PropsLaw
import Verif.Props.Law
import Verif.Lemmas.PropsSequence
import Verif.Props.Sequence
import Verif.Lemmas.PropsUnusable
import Verif.Props.Unusable
import Verif.Py.Round
import Verif.Spec.Rounding
import Verif.Py.RoundMath
import Verif.Spec.RoundingTrace
import Verif.Lemmas.FlDist
import Verif.Lemmas.FlField
import Verif.Lemmas.FlHistory
import Verif.Lemmas.FlAny
import Verif.Lemmas.FlBounds
import Verif.Lemmas.FlExample
import Verif.Props.Rounding
import Verif.Model.FlReport
import Verif.Spec.FlReport
import Verif.Lemmas.FlThresholds
import Verif.Lemmas.FlReport
import Verif.Lemmas.FlReportExample
import Verif.Props.FlReport
import Verif.Lemmas.Acres
import Verif.Props.Acres
import Verif.Lemmas.FlTime
import Verif.Lemmas.FlRK
import Verif.Lemmas.FlAccuracy
import Verif.Lemmas.FlTerminate
import Verif.Lemmas.FlFollow
import Verif.Props.RoundingTrace
import Verif.Spec.RoundingAquifer
import Verif.Lemmas.FlErr
import Verif.Lemmas.FlAquifer
import Verif.Lemmas.FlVelocity
import Verif.Lemmas.FlHead
import Verif.Props.RoundingAquifer
import Verif.Spec.Statistics
import Verif.Lemmas.PartMeas
import Verif.Lemmas.TraceMeas
import Verif.Lemmas.FitDetermined
import Verif.Lemmas.AquiferMeas
import Verif.Lemmas.RunMeas
import Verif.Lemmas.Iid
import Verif.Lemmas.PropsStatistics
import Verif.Lemmas.Gauss
import Verif.Lemmas.PropsNormal
import Verif.Props.Statistics
import Verif.Props.Normal
import Verif.Props.StatisticsExamples
import Verif.Py.Format
import Verif.Spec.Format
import Verif.Lemmas.Format
import Verif.Spec.FilterLog
import Verif.Lemmas.FilterLog
import Verif.Props.FilterLog
import Verif.Model.Text
import Verif.Spec.Text
import Verif.Lemmas.Text
import Verif.Props.Text
import Verif.Props.TextExamples
import Verif.Model.FlCapturezone
import Verif.Spec.RoundingZone
import Verif.Lemmas.FlZone
import Verif.Lemmas.FlStarts
import Verif.Props.RoundingZone
import Verif.Props.RoundingZoneExamples
import Verif.Spec.Estimator
import Verif.Lemmas.Estimator
import Verif.Props.Estimator
import Verif.Props.EstimatorExamples
import Verif.Model.FlVariate
import Verif.Spec.FlVariate
import Verif.Lemmas.FlVariate
import Verif.Props.FlVariate
import Verif.Props.FlVariateExamples
import Verif.Model.FlUtilities
import Verif.Spec.FlUtilities
import Verif.Lemmas.FlUtilities
import Verif.Props.FlUtilities
import Verif.Props.FlUtilitiesExamples
import Verif.Spec.Stability
import Verif.Lemmas.Stability
import Verif.Props.Stability
import Verif.Props.StabilityExamples
import Verif.Model.FlFit
import Verif.Spec.FlFit
import Verif.Lemmas.FlFit
import Verif.Props.FlFit
import Verif.Props.FlFitExamples
import Verif.Spec.Rivals
import Verif.Lemmas.Rivals
import Verif.Props.Rivals
import Verif.Props.RivalsExamples
import Verif.Lemmas.FlFollowCore
import Verif.Lemmas.FlFitVelocity
import Verif.Model.FlRun
import Verif.Spec.FlRun
import Verif.Lemmas.FlRun
import Verif.Props.FlRun
import Verif.Props.FlRunExamples
import Verif.Spec.FlCovariance
import Verif.Lemmas.FlCovariance
import Verif.Props.FlCovariance
import Verif.Props.FlCovarianceExamples
import Verif.Props.ProjectTests
import Verif.Py.Binary64
import Verif.Lemmas.Range
import Verif.Spec.Binary64
import Verif.Lemmas.Binary64Aquifer
import Verif.Lemmas.Binary64Range
import Verif.Props.Binary64
import Verif.Lemmas.Binary64Grow
import Verif.Lemmas.Binary64Field
import Verif.Props.Binary64Field
import Verif.Lemmas.Binary64Trace
import Verif.Lemmas.Binary64Path
import Verif.Props.Binary64Trace
import Verif.Model.AnyCapturezone
import Verif.Lemmas.Binary64Zone
import Verif.Lemmas.PropsBinary64Zone
import Verif.Props.Binary64Zone
import Verif.Props.Binary64ZoneExamples
import Verif.Model.Str
import Verif.Spec.Str
import Verif.Lemmas.Str
import Verif.Lemmas.StrDigits
import Verif.Lemmas.StrLog
import Verif.Lemmas.StrCall
import Verif.Props.Str
import Verif.Props.StrExamples
import Verif.Spec.Shift
import Verif.Lemmas.ShiftField
import Verif.Lemmas.ShiftTrace
import Verif.Lemmas.ShiftRun
import Verif.Lemmas.ShiftCompute
import Verif.Lemmas.ShiftCall
import Verif.Props.Shift
import Verif.Props.ShiftExamples
import Verif.Spec.Datum
import Verif.Lemmas.Datum
import Verif.Props.Datum
import Verif.Props.DatumExamples
import Verif.Spec.Order
import Verif.Lemmas.Order
import Verif.Lemmas.OrderRun
import Verif.Lemmas.OrderLaw
import Verif.Props.Order
import Verif.Props.OrderExamples
import Verif.Spec.Ratio
import Verif.Lemmas.Ratio
import Verif.Lemmas.RatioRun
import Verif.Props.Ratio
import Verif.Props.RatioExamples
import Verif.Model.B64Run
import Verif.Spec.B64Run
import Verif.Lemmas.B64Filter
import Verif.Lemmas.B64Fit
import Verif.Lemmas.B64Run
import Verif.Lemmas.B64Report
import Verif.Props.Binary64Run
import Verif.Props.Binary64RunExamples
import Verif.Spec.Sensitivity
import Verif.Lemmas.Sensitivity
import Verif.Props.Sensitivity
import Verif.Props.SensitivityExamples
import Verif.Spec.Turn
import Verif.Lemmas.Turn
import Verif.Lemmas.TurnRun
import Verif.Props.Turn
import Verif.Props.TurnExamples
import Verif.Spec.Observations
import Verif.Lemmas.Observations
import Verif.Lemmas.ObservationsRun
import Verif.Props.Observations
import Verif.Props.ObservationsExamples
import Verif.Spec.Duration
import Verif.Lemmas.Duration
import Verif.Props.Duration
import Verif.Props.DurationExamples
import Verif.Spec.Arrival
import Verif.Lemmas.Arrival
import Verif.Props.Arrival
import Verif.Props.ArrivalExamples
import Verif.Spec.Certain
import Verif.Lemmas.Certain
import Verif.Props.Certain
import Verif.Props.CertainExamples
import Verif.Spec.NearWell
import Verif.Lemmas.NearWell
import Verif.Props.NearWell
import Verif.Props.NearWellExamples
import Verif.Props.Script
import Verif.Props.ScriptExamples
import Verif.Spec.Units
import Verif.Lemmas.Units
import Verif.Lemmas.UnitsFit
import Verif.Lemmas.UnitsRun
import Verif.Props.Units
import Verif.Props.UnitsExamples
import Verif.Spec.Confined
import Verif.Lemmas.Confined
import Verif.Lemmas.UniformOnly
import Verif.Props.Confined
import Verif.Props.ConfinedExamples
import Verif.Spec.Idle
import Verif.Lemmas.Idle
import Verif.Props.Idle
import Verif.Props.IdleExamples
import Verif.Spec.Target
import Verif.Lemmas.Target
import Verif.Lemmas.TargetCall
import Verif.Props.Target
import Verif.Props.TargetExamples
import Verif.Spec.Repro
import Verif.Lemmas.Repro
import Verif.Props.Repro
import Verif.Props.ReproExamples
import Verif.Spec.Zones
import Verif.Lemmas.Zones
import Verif.Lemmas.ZonesCall
import Verif.Props.Zones
import Verif.Props.ZonesExamples
import Verif.Spec.Merge
import Verif.Lemmas.Merge
import Verif.Props.Merge
import Verif.Props.MergeExamples
import Verif.Spec.Width
import Verif.Lemmas.Width
import Verif.Props.Width
import Verif.Props.WidthExamples
import Verif.Model.Smooth
import Verif.Spec.Smooth
import Verif.Lemmas.Smooth
import Verif.Props.Smooth
import Verif.Props.SmoothExamples
import Verif.Spec.Divide
import Verif.Lemmas.Divide
import Verif.Props.Divide
import Verif.Props.DivideExamples
import Verif.Spec.Still
import Verif.Lemmas.Still
import Verif.Lemmas.StillFollows
import Verif.Props.Still
import Verif.Props.StillExamples
import Verif.Spec.Straight
import Verif.Lemmas.Straight
import Verif.Lemmas.Outward
import Verif.Props.Straight
import Verif.Props.StraightExamples
import Verif.Spec.Speed
import Verif.Lemmas.Speed
import Verif.Props.Speed
import Verif.Props.SpeedExamples
import Verif.Model.Optimized
import Verif.Lemmas.Optimized
import Verif.Props.Optimized
import Verif.Props.OptimizedExamples
import Verif.Spec.Area
import Verif.Lemmas.Area
import Verif.Lemmas.AreaStill
import Verif.Props.Area
import Verif.Props.AreaExamples
import Verif.Spec.Redraw
import Verif.Lemmas.Redraw
import Verif.Lemmas.RedrawAlike
import Verif.Props.Redraw
import Verif.Props.RedrawExamples
import Verif.Spec.Rain
import Verif.Lemmas.Rain
import Verif.Props.Rain
import Verif.Props.RainExamples
import Verif.Spec.Pool
import Verif.Lemmas.Pool
import Verif.Props.Pool
import Verif.Props.PoolExamples
import Verif.Spec.Barrier
import Verif.Lemmas.Barrier
import Verif.Props.Barrier
import Verif.Props.BarrierExamples
import Verif.Lemmas.Clock
import Verif.Props.Clock
import Verif.Props.ClockExamples
import Verif.Lemmas.Fall
import Verif.Props.Fall
import Verif.Props.FallExamples
import Verif.Spec.Storage
import Verif.Lemmas.Storage
import Verif.Props.Storage
import Verif.Props.StorageExamples
