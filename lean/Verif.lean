import Verif.Lemmas.Alike
import Verif.Lemmas.Basic
import Verif.Lemmas.Blur
import Verif.Lemmas.CSession
import Verif.Lemmas.ColorMap
import Verif.Lemmas.Contrast
import Verif.Lemmas.ContrastSpec
import Verif.Lemmas.Convert
import Verif.Lemmas.CutSpec
import Verif.Lemmas.Debug
import Verif.Lemmas.DebugCut
import Verif.Lemmas.DebugExact
import Verif.Lemmas.DebugFinite
import Verif.Lemmas.DebugRemap
import Verif.Lemmas.DebugSearch
import Verif.Lemmas.Diffuse
import Verif.Lemmas.DitherMap
import Verif.Lemmas.DitherPrep
import Verif.Lemmas.DitherRuns
import Verif.Lemmas.DitherTrace
import Verif.Lemmas.Env
import Verif.Lemmas.FewColors
import Verif.Lemmas.Finite
import Verif.Lemmas.FiniteHist
import Verif.Lemmas.FiniteRemap
import Verif.Lemmas.FiniteRemapPalette
import Verif.Lemmas.FiniteSearch
import Verif.Lemmas.FiniteSplit
import Verif.Lemmas.FiniteThin
import Verif.Lemmas.FiniteTrace
import Verif.Lemmas.Fixed
import Verif.Lemmas.Floyd
import Verif.Lemmas.Heap
import Verif.Lemmas.Hist
import Verif.Lemmas.HistAdd
import Verif.Lemmas.HistDistinct
import Verif.Lemmas.Hull
import Verif.Lemmas.HullHist
import Verif.Lemmas.HullUse
import Verif.Lemmas.Kmeans
import Verif.Lemmas.KmeansPass
import Verif.Lemmas.KmeansRange
import Verif.Lemmas.KmeansSum
import Verif.Lemmas.Log
import Verif.Lemmas.Lossless
import Verif.Lemmas.Machine
import Verif.Lemmas.MachineHist
import Verif.Lemmas.MachineImage
import Verif.Lemmas.MachineRemap
import Verif.Lemmas.MedianCut
import Verif.Lemmas.MedianCutResult
import Verif.Lemmas.Memory
import Verif.Lemmas.MemoryImage
import Verif.Lemmas.MemoryLeft
import Verif.Lemmas.MemoryRemap
import Verif.Lemmas.Metric
import Verif.Lemmas.Nearest
import Verif.Lemmas.NearestSearch
import Verif.Lemmas.NoWeight
import Verif.Lemmas.Own
import Verif.Lemmas.OwnCalls
import Verif.Lemmas.OwnRun
import Verif.Lemmas.OwnSteps
import Verif.Lemmas.PlainPass
import Verif.Lemmas.Prepare
import Verif.Lemmas.Quality
import Verif.Lemmas.Quant
import Verif.Lemmas.QuantError
import Verif.Lemmas.QuantFew
import Verif.Lemmas.QuantLast
import Verif.Lemmas.QuantRun
import Verif.Lemmas.QuantTrace
import Verif.Lemmas.Rayoff
import Verif.Lemmas.Reach
import Verif.Lemmas.RemapDither
import Verif.Lemmas.RemapExact
import Verif.Lemmas.RemapFree
import Verif.Lemmas.RemapPlain
import Verif.Lemmas.RemapRows
import Verif.Lemmas.RemapRun
import Verif.Lemmas.RemapSum
import Verif.Lemmas.Rounded
import Verif.Lemmas.RoundedColor
import Verif.Lemmas.RoundedConvert
import Verif.Lemmas.RoundedDiff
import Verif.Lemmas.RoundedDither
import Verif.Lemmas.RoundedFloyd
import Verif.Lemmas.RoundedMean
import Verif.Lemmas.RoundedNoise
import Verif.Lemmas.RoundedQuality
import Verif.Lemmas.RoundedSearch
import Verif.Lemmas.RoundedStrength
import Verif.Lemmas.Rows
import Verif.Lemmas.Shows
import Verif.Lemmas.SortHalf
import Verif.Lemmas.Twin
import Verif.Lemmas.User
import Verif.Lemmas.UserHist
import Verif.Model.Attr
import Verif.Model.Blur
import Verif.Model.CloneImage
import Verif.Model.CorrectRound
import Verif.Model.Debug
import Verif.Model.DebugRemap
import Verif.Model.Ffi
import Verif.Model.Flt
import Verif.Model.Hasher
import Verif.Model.Heap
import Verif.Model.Hist
import Verif.Model.Image
import Verif.Model.Kmeans
import Verif.Model.Log
import Verif.Model.Machine
import Verif.Model.MedianCut
import Verif.Model.Memory
import Verif.Model.MemoryRemap
import Verif.Model.Nearest
import Verif.Model.Overflow
import Verif.Model.Pal
import Verif.Model.Prepare
import Verif.Model.Quant
import Verif.Model.Rayoff
import Verif.Model.Remap
import Verif.Model.Rounded
import Verif.Model.RoundedOrder
import Verif.Model.Simd
import Verif.Props.Access
import Verif.Props.Again
import Verif.Props.CSession
import Verif.Props.Clone
import Verif.Props.Clusters
import Verif.Props.Color
import Verif.Props.ContrastMaps
import Verif.Props.Convert
import Verif.Props.Cut
import Verif.Props.Debug
import Verif.Props.DebugRemap
import Verif.Props.DebugRemapRounded
import Verif.Props.DebugRounded
import Verif.Props.Dither
import Verif.Props.DitherMap
import Verif.Props.Ffi
import Verif.Props.Filters
import Verif.Props.Finite
import Verif.Props.FiniteRemap
import Verif.Props.FiniteUse
import Verif.Props.Fixed
import Verif.Props.FixedRemap
import Verif.Props.FloatArgs
import Verif.Props.Floyd
import Verif.Props.Frozen
import Verif.Props.Gamma
import Verif.Props.Hasher
import Verif.Props.HistStart
import Verif.Props.Histogram
import Verif.Props.Image
import Verif.Props.Importance
import Verif.Props.Kmeans
import Verif.Props.KmeansPass
import Verif.Props.Log
import Verif.Props.LogImage
import Verif.Props.Looking
import Verif.Props.Lossless
import Verif.Props.Machine
import Verif.Props.MedianCut
import Verif.Props.Memory
import Verif.Props.MemoryRemap
import Verif.Props.Mixture
import Verif.Props.NoWeight
import Verif.Props.OpaqueRounded
import Verif.Props.Ownership
import Verif.Props.PaletteOrder
import Verif.Props.Posterize
import Verif.Props.Prepare
import Verif.Props.PrepareLarge
import Verif.Props.Progress
import Verif.Props.QuantError
import Verif.Props.Quantize
import Verif.Props.Rayoff
import Verif.Props.Refine
import Verif.Props.Remap
import Verif.Props.RemapExact
import Verif.Props.RemapFree
import Verif.Props.Repeat
import Verif.Props.Rounded
import Verif.Props.RoundedFloyd
import Verif.Props.RoundedImportance
import Verif.Props.RoundedProgress
import Verif.Props.RoundedRemap
import Verif.Props.Rounding
import Verif.Props.SamePixels
import Verif.Props.Search
import Verif.Props.Settings
import Verif.Props.Simd
import Verif.Spec.Color
import Verif.Spec.Contrast
import Verif.Spec.Dither
import Verif.Spec.DitherMap
import Verif.Spec.Filters
import Verif.Spec.Floyd
import Verif.Spec.FloydUpTo
import Verif.Spec.Histogram
import Verif.Spec.Kmeans
import Verif.Spec.MedianCut
import Verif.Spec.Posterize
import Verif.Spec.Refine
import Verif.Spec.Rounding
import Verif.Spec.Search
import Verif.Spec.Settings
import Verif.Spec.Shelf
