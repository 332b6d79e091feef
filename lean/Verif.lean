import Verif.Props.Cache
import Verif.Props.BaseOps
import Verif.Props.Geometry
import Verif.Props.HeightParams
import Verif.Props.Areas
import Verif.Props.Filter
import Verif.Props.Object
import Verif.Props.Heap
import Verif.Props.Editable
import Verif.Props.Detrend
import Verif.Props.FillRotate
import Verif.Props.Homogeneity
import Verif.Props.Stepheight
import Verif.Props.Interp
import Verif.Props.Abbott
import Verif.Props.Autocorr
import Verif.Props.Fourier
import Verif.Props.Angular
import Verif.Props.Sinusoid
import Verif.Props.Depth
import Verif.Props.Batch
import Verif.Props.Filename
import Verif.Props.Roughness
import Verif.Props.Cli
import Verif.Props.Units
import Verif.Props.Layout
import Verif.Props.Sur
import Verif.Props.DepthWindow
import Verif.Props.BatchMerge
import Verif.Props.Tmd
import Verif.Props.Al3d
import Verif.Props.Sdf
import Verif.Props.Sflz
import Verif.Props.FileHandler
import Verif.Props.Gwy
import Verif.Props.Fits
import Verif.Props.FitsFile
import Verif.Props.Dat
import Verif.Props.Xyz
import Verif.Props.Nms
import Verif.Props.Plu
import Verif.Props.Opd
import Verif.Props.SurRead
import Verif.Props.Al3dRead
import Verif.Props.Vk
import Verif.Props.Zmg
import Verif.Props.Os3d
import Verif.Props.Plux
import Verif.Props.X3p
import Verif.Model.Convert
import Verif.Props.Convert
import Verif.Model.Orientation
import Verif.Lemmas.Orientation
import Verif.Props.Orientation
import Verif.Model.SaveLoad
import Verif.Spec.SaveLoad
import Verif.Props.SaveLoad
import Verif.Model.Functional
import Verif.Props.Functional
import Verif.Model.Cag
import Verif.Spec.Cag
import Verif.Lemmas.Cag
import Verif.Props.Cag
import Verif.Model.BatchCall
import Verif.Spec.BatchCall
import Verif.Props.BatchCall
import Verif.Model.LevelCache
import Verif.Props.LevelCache
import Verif.Model.Period
import Verif.Spec.Period
import Verif.Lemmas.Period
import Verif.Props.Period
import Verif.Model.Gauss
import Verif.Spec.Gauss
import Verif.Lemmas.Gauss
import Verif.Props.Gauss
import Verif.Lemmas.GaussWave
import Verif.Props.GaussWave
import Verif.Spec.Spectrum
import Verif.Lemmas.Spectrum
import Verif.Props.Spectrum
import Verif.Model.Report
import Verif.Spec.Report
import Verif.Props.Report
import Verif.Spec.Placement
import Verif.Props.Placement
import Verif.Props.ProfileParams
import Verif.Model.Stats
import Verif.Props.Stats
import Verif.Model.GwyImages
import Verif.Spec.GwyImages
import Verif.Props.GwyImages
import Verif.Model.ResultTable
import Verif.Props.ResultTable
import Verif.Model.SurImages
import Verif.Spec.SurImages
import Verif.Lemmas.SurImages
import Verif.Props.SurImages
import Verif.Props.ImageLayers
import Verif.Model.FitsImages
import Verif.Props.FitsImages
import Verif.Model.Plots
import Verif.Spec.Plots
import Verif.Props.Plots
import Verif.Model.Attachments
import Verif.Spec.Attachments
import Verif.Props.Attachments
import Verif.Model.Analysis
import Verif.Spec.Analysis
import Verif.Props.Analysis
import Verif.Spec.AutocorrPlace
import Verif.Lemmas.AutocorrPlace
import Verif.Props.AutocorrPlace
import Verif.Model.Regex
import Verif.Spec.Regex
import Verif.Lemmas.Regex
import Verif.Props.Regex
import Verif.Props.Cutting
import Verif.Model.Scene
import Verif.Props.Scene
import Verif.Model.Threads
import Verif.Props.Threads
import Verif.Spec.Stable
import Verif.Lemmas.Stable
import Verif.Props.Stable
import Verif.Props.StableOps
import Verif.Spec.TestSurface
import Verif.Lemmas.TestSurface
import Verif.Props.TestSurface
import Verif.Props.TestRamp
import Verif.Props.TestStep
import Verif.Props.Direction
import Verif.Props.SquareGrating
import Verif.Spec.Square
import Verif.Lemmas.SquareWave
import Verif.Props.WaveDepth
import Verif.Props.FitsLines
import Verif.Props.Extruded
import Verif.Props.SdfText
import Verif.Spec.Lying
import Verif.Lemmas.Lying
import Verif.Props.Lying
import Verif.Props.Rescaled
import Verif.Lemmas.Order
import Verif.Props.Order
import Verif.Model.Indexing
import Verif.Spec.Indexing
import Verif.Lemmas.Indexing
import Verif.Props.Indexing
import Verif.Props.FilterObject
import Verif.Model.Examples
import Verif.Props.Examples
import Verif.Model.Construct
import Verif.Props.Construct
import Verif.Model.SplineLine
import Verif.Spec.Spline
import Verif.Lemmas.Spline
import Verif.Props.Spline
import Verif.Props.SplineTies
import Verif.Spec.SdfText
import Verif.Props.SdfRead
import Verif.Model.Registry
import Verif.Props.Registry
import Verif.Spec.StepLevel
import Verif.Props.StepLying
import Verif.Props.Docs
import Verif.Model.Align
import Verif.Spec.Align
import Verif.Props.Align
import Verif.Props.RotateWide
