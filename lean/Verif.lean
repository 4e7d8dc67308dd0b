import Verif.Lemmas.Calendar
import Verif.Lemmas.Climat
import Verif.Lemmas.Eof
import Verif.Lemmas.Index
import Verif.Lemmas.NArr
import Verif.Lemmas.Reduce
import Verif.Lemmas.ReduceCount
import Verif.Lemmas.ReduceLoop
import Verif.Lemmas.TimeC
import Verif.Lemmas.ToolsC
import Verif.Lemmas.View
import Verif.Model.Along
import Verif.Model.ArgMin
import Verif.Model.Axis
import Verif.Model.Calendar
import Verif.Model.CalendarPy
import Verif.Model.Call
import Verif.Model.Cf
import Verif.Model.CfFile
import Verif.Model.Classic
import Verif.Model.ClimVar
import Verif.Model.Climat
import Verif.Model.Coefs
import Verif.Model.Combine
import Verif.Model.Composite
import Verif.Model.Concat
import Verif.Model.Contours
import Verif.Model.DapRoute
import Verif.Model.Dataset
import Verif.Model.DatasetOps
import Verif.Model.DateText
import Verif.Model.Domains
import Verif.Model.Ensemble
import Verif.Model.Eof
import Verif.Model.EofGuess
import Verif.Model.FftSmooth
import Verif.Model.FindBest
import Verif.Model.Flatten
import Verif.Model.FormatValue
import Verif.Model.FromFiles
import Verif.Model.FullAxes
import Verif.Model.Functions
import Verif.Model.GetItem
import Verif.Model.Grib
import Verif.Model.GribVar
import Verif.Model.Hdf4
import Verif.Model.Index
import Verif.Model.Interp
import Verif.Model.Lag
import Verif.Model.Layout
import Verif.Model.LeapDays
import Verif.Model.LibSearch
import Verif.Model.Locator
import Verif.Model.LogLabels
import Verif.Model.LogNorm
import Verif.Model.Lookup
import Verif.Model.LookupAxis
import Verif.Model.Loop
import Verif.Model.Manifest
import Verif.Model.MultiRegress
import Verif.Model.Multifile
import Verif.Model.NArr
import Verif.Model.NetCdf
import Verif.Model.OpenAll
import Verif.Model.OpenDap
import Verif.Model.OpenMulti
import Verif.Model.OpenOptions
import Verif.Model.Override
import Verif.Model.Pack
import Verif.Model.Pages
import Verif.Model.PartialSum
import Verif.Model.Plot
import Verif.Model.Progress
import Verif.Model.Reduce
import Verif.Model.Rotate
import Verif.Model.Scan
import Verif.Model.Seasonal
import Verif.Model.ShowGrid
import Verif.Model.Smooth
import Verif.Model.SortKeys
import Verif.Model.Spectral
import Verif.Model.SplitTime
import Verif.Model.Station
import Verif.Model.Stats
import Verif.Model.Svd
import Verif.Model.Ticks
import Verif.Model.TimeC
import Verif.Model.TimeInit
import Verif.Model.TimeLabels
import Verif.Model.TimeMatch
import Verif.Model.TimeRange
import Verif.Model.ToolsC
import Verif.Model.VarOps
import Verif.Model.View
import Verif.Model.Weights
import Verif.Model.XArray
import Verif.Model.Yearless
import Verif.Props.Along
import Verif.Props.AlongLoop
import Verif.Props.Anomaly
import Verif.Props.ArgMin
import Verif.Props.Axis
import Verif.Props.AxisSlice
import Verif.Props.Calendar
import Verif.Props.Call
import Verif.Props.Cf
import Verif.Props.CfFile
import Verif.Props.Classic
import Verif.Props.ClimRemake
import Verif.Props.ClimTrend
import Verif.Props.ClimVar
import Verif.Props.Climat
import Verif.Props.Coefs
import Verif.Props.Combine
import Verif.Props.CombinePair
import Verif.Props.Composite
import Verif.Props.Concat
import Verif.Props.Contours
import Verif.Props.DapRoute
import Verif.Props.Dataset
import Verif.Props.DatasetJoin
import Verif.Props.DatasetOps
import Verif.Props.DateText
import Verif.Props.Deriv
import Verif.Props.Domains
import Verif.Props.Ensemble
import Verif.Props.Eof
import Verif.Props.EofCov
import Verif.Props.EofExists
import Verif.Props.EofGuess
import Verif.Props.EofGuessMerge
import Verif.Props.EofGuessRun
import Verif.Props.EofGuessUse
import Verif.Props.EofMat
import Verif.Props.EofUse
import Verif.Props.EofWeights
import Verif.Props.FftLines
import Verif.Props.FftSmooth
import Verif.Props.FindBest
import Verif.Props.Flatten
import Verif.Props.FormatValue
import Verif.Props.FromFiles
import Verif.Props.FullAxes
import Verif.Props.Functions
import Verif.Props.GetItem
import Verif.Props.Grib
import Verif.Props.GribFile
import Verif.Props.GribIndex
import Verif.Props.GribRecord
import Verif.Props.GribRound
import Verif.Props.GribVar
import Verif.Props.Hdf4
import Verif.Props.Index
import Verif.Props.IndexInt
import Verif.Props.Integrate
import Verif.Props.Interp
import Verif.Props.InterpVar
import Verif.Props.JoinTime
import Verif.Props.Lag
import Verif.Props.Layout
import Verif.Props.LeapDays
import Verif.Props.LibSearch
import Verif.Props.Locator
import Verif.Props.LogLabels
import Verif.Props.LogNorm
import Verif.Props.Lookup
import Verif.Props.LookupAxis
import Verif.Props.Loop
import Verif.Props.LoopOrder
import Verif.Props.Manifest
import Verif.Props.MultiRegress
import Verif.Props.MultiRegressCell
import Verif.Props.MultiRegressLoop
import Verif.Props.Multifile
import Verif.Props.NetCdf
import Verif.Props.OpenAll
import Verif.Props.OpenDap
import Verif.Props.OpenDapAtts
import Verif.Props.OpenDapDescribe
import Verif.Props.OpenDapEscape
import Verif.Props.OpenDapLoad
import Verif.Props.OpenDapParse
import Verif.Props.OpenDapServer
import Verif.Props.OpenDapTok
import Verif.Props.OpenDapUse
import Verif.Props.OpenDapXdr
import Verif.Props.OpenMulti
import Verif.Props.OpenOptions
import Verif.Props.Override
import Verif.Props.Pack
import Verif.Props.Pages
import Verif.Props.PartialSum
import Verif.Props.Plot
import Verif.Props.Progress
import Verif.Props.Reduce
import Verif.Props.Rotate
import Verif.Props.Scan
import Verif.Props.Seasonal
import Verif.Props.SeasonalVar
import Verif.Props.Seasons
import Verif.Props.ShowGrid
import Verif.Props.Smooth
import Verif.Props.SortKeys
import Verif.Props.Spectral
import Verif.Props.SplitTime
import Verif.Props.Station
import Verif.Props.Stats
import Verif.Props.StatsCell
import Verif.Props.StatsLoop
import Verif.Props.Svd
import Verif.Props.SvdExample
import Verif.Props.SvdFixed
import Verif.Props.SvdRun
import Verif.Props.Ticks
import Verif.Props.TimeC
import Verif.Props.TimeInit
import Verif.Props.TimeLabels
import Verif.Props.TimeMatch
import Verif.Props.TimeRange
import Verif.Props.ToolsC
import Verif.Props.Ufunc
import Verif.Props.VarOps
import Verif.Props.View
import Verif.Props.ViewGet
import Verif.Props.Weights
import Verif.Props.XArray
import Verif.Props.Yearless
import Verif.Spec.Along
import Verif.Spec.Axis
import Verif.Spec.Calendar
import Verif.Spec.Classic
import Verif.Spec.ClimVar
import Verif.Spec.Climat
import Verif.Spec.Contours
import Verif.Spec.DapRoute
import Verif.Spec.EofGuess
import Verif.Spec.FftSmooth
import Verif.Spec.FromFiles
import Verif.Spec.Grib
import Verif.Spec.Index
import Verif.Spec.Interp
import Verif.Spec.Layout
import Verif.Spec.LibSearch
import Verif.Spec.Locator
import Verif.Spec.LogLabels
import Verif.Spec.MultiRegress
import Verif.Spec.OpenDap
import Verif.Spec.Reduce
import Verif.Spec.Seasonal
import Verif.Spec.Smooth
import Verif.Spec.SortKeys
import Verif.Spec.SplitTime
import Verif.Spec.Stats
import Verif.Spec.Svd
import Verif.Spec.TimeInit
import Verif.Spec.TimeLabels
import Verif.Spec.TimeMatch
import Verif.Spec.Var
import Verif.Spec.View
import Verif.Spec.XArray
import Verif.Spec.Yearless
