import Verif.Algo.ArrayRate
import Verif.Algo.Arrivals
import Verif.Algo.CountRate
import Verif.Algo.Fake
import Verif.Algo.FilterData
import Verif.Algo.FiveLag
import Verif.Algo.Flux
import Verif.Algo.OffRecord
import Verif.Algo.Prompt
import Verif.Algo.Resume
import Verif.Algo.RiseTime
import Verif.Algo.Rounding
import Verif.Algo.Summary
import Verif.Algo.SummaryFile
import Verif.Algo.SummaryThm
import Verif.Algo.TimeCorr
import Verif.Algo.Times
import Verif.Algo.Trigger
import Verif.Calc.Agree
import Verif.Calc.Align
import Verif.Calc.Autocal
import Verif.Calc.BSpline
import Verif.Calc.CalPlot
import Verif.Calc.Chain
import Verif.Calc.Correct
import Verif.Calc.Curve
import Verif.Calc.Diagnose
import Verif.Calc.EffUncert
import Verif.Calc.Efficiency
import Verif.Calc.Evidence
import Verif.Calc.Expr
import Verif.Calc.ExprDeriv
import Verif.Calc.FitRange
import Verif.Calc.Fresh
import Verif.Calc.Gpr
import Verif.Calc.GprSmooth
import Verif.Calc.Instruments
import Verif.Calc.Invert
import Verif.Calc.LearnPlan
import Verif.Calc.Linterp
import Verif.Calc.Natural
import Verif.Calc.PhaseAlign
import Verif.Calc.PhaseLearn
import Verif.Calc.Plan
import Verif.Calc.Quality
import Verif.Calc.Shapes
import Verif.Calc.SmoothSpline
import Verif.Calc.Smoothing
import Verif.Calc.Spline
import Verif.Calc.SplineDeriv
import Verif.Calc.StdDevCut
import Verif.Calc.Table
import Verif.Calc.TableThm
import Verif.Calc.TimeDrift
import Verif.Calc.Uncert
import Verif.Cut.Apply
import Verif.Cut.AutoCuts
import Verif.Cut.Inv
import Verif.Cut.Lemmas
import Verif.Cut.Model
import Verif.Cut.Ops
import Verif.Cut.ParamProps
import Verif.Cut.Params
import Verif.Cut.Props
import Verif.Cut.PropsCat
import Verif.Cut.PropsFresh
import Verif.Cut.PropsQuery
import Verif.Cut.Query
import Verif.Cut.Smart
import Verif.Cut.Stored
import Verif.Group.BinSize
import Verif.Group.ChanPlots
import Verif.Group.HdfFiles
import Verif.Group.LineFits
import Verif.Group.Master
import Verif.Group.Model
import Verif.Group.ModelFile
import Verif.Group.Pages
import Verif.Group.Plots
import Verif.Group.Progress
import Verif.Group.Props
import Verif.Group.Restore
import Verif.Group.Segments
import Verif.Group.Sums
import Verif.Group.Vectors
import Verif.Lin.Ats
import Verif.Lin.ChanNoise
import Verif.Lin.Dft
import Verif.Lin.Filter
import Verif.Lin.FilterFile
import Verif.Lin.FilterUse
import Verif.Lin.Ideal
import Verif.Lin.Kink
import Verif.Lin.KinkFit
import Verif.Lin.LowPass
import Verif.Lin.Lowpass
import Verif.Lin.ModelFig
import Verif.Lin.PulseModel
import Verif.Lin.Rsvd
import Verif.Lin.SavGol
import Verif.Lin.Toeplitz
import Verif.Lin.Whiten
import Verif.Line.Asd
import Verif.Line.Builtin
import Verif.Line.BuiltinThm
import Verif.Line.ByName
import Verif.Line.Fit
import Verif.Line.FitFigs
import Verif.Line.Hci
import Verif.Line.IonLines
import Verif.Line.IonTable
import Verif.Line.LinePlot
import Verif.Line.Model
import Verif.Line.Registry
import Verif.Line.Report
import Verif.Line.Spectral
import Verif.Line.Sums
import Verif.Line.Tails
import Verif.Line.Target
import Verif.Line.XrayData
import Verif.Line.XrayDb
import Verif.Line.XrayFig
import Verif.Line.XrayFile
import Verif.Line.XrayTable
import Verif.Ljh.Copy
import Verif.Ljh.Header
import Verif.Ljh.Inverted
import Verif.Ljh.Merge
import Verif.Ljh.Model
import Verif.Ljh.Modify
import Verif.Ljh.OffRecord
import Verif.Ljh.Old
import Verif.Ljh.Open
import Verif.Ljh.Polarity
import Verif.Ljh.Props
import Verif.Ljh.PropsModify
import Verif.Ljh.Records
import Verif.Ljh.TruncScript
import Verif.Names.HdfPrint
import Verif.Names.Labels
import Verif.Names.Model
import Verif.Names.Paths
import Verif.Names.Props
import Verif.Names.Scripts
import Verif.Off.Model
import Verif.Off.Open
import Verif.Off.Props
import Verif.Off.Runs
import Verif.Off.Write
import Verif.Py
import Verif.Recipe.Attrs
import Verif.Recipe.Cuts
import Verif.Recipe.Drift
import Verif.Recipe.Model
import Verif.Recipe.Props
import Verif.Stat.Autocorr
import Verif.Stat.AutocorrPulses
import Verif.Stat.CrossEntropy
import Verif.Stat.Crosstalk
import Verif.Stat.Entropy
import Verif.Stat.EntropyApprox
import Verif.Stat.FirstN
import Verif.Stat.Hist
import Verif.Stat.HistFig
import Verif.Stat.Location
import Verif.Stat.Masks
import Verif.Stat.Median
import Verif.Stat.Merge
import Verif.Stat.Neighbors
import Verif.Stat.NoiseFile
import Verif.Stat.PoissonHist
import Verif.Stat.Qscale
import Verif.Stat.Robust
import Verif.Stat.Savgol
import Verif.Stat.Smoother
import Verif.Stat.SpectraFig
import Verif.Stat.Spectrum
import Verif.Stat.Windows
import Verif.States.Arrays
import Verif.States.Categories
import Verif.States.Export
import Verif.States.Model
import Verif.States.Props
import Verif.States.Scatter
import Verif.States.Select
import Verif.States.Text
