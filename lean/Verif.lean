import Verif.Lemmas.Affine
import Verif.Lemmas.Agree
import Verif.Lemmas.Axes
import Verif.Lemmas.AxisOps
import Verif.Lemmas.Binomial
import Verif.Lemmas.Block
import Verif.Lemmas.Bridge
import Verif.Lemmas.Comoments
import Verif.Lemmas.Convert
import Verif.Lemmas.Coords
import Verif.Lemmas.DTypes
import Verif.Lemmas.Dataset
import Verif.Lemmas.DatasetConvert
import Verif.Lemmas.DatasetViews
import Verif.Lemmas.Factor
import Verif.Lemmas.Factory
import Verif.Lemmas.Fold
import Verif.Lemmas.Freq
import Verif.Lemmas.Generic
import Verif.Lemmas.Grouped
import Verif.Lemmas.Indexed
import Verif.Lemmas.Interval
import Verif.Lemmas.IntervalLabelled
import Verif.Lemmas.IntervalNd
import Verif.Lemmas.LabelledCollect
import Verif.Lemmas.LabelledHistory
import Verif.Lemmas.LabelledJoin
import Verif.Lemmas.LabelledMake
import Verif.Lemmas.LabelledNd
import Verif.Lemmas.LabelledObject
import Verif.Lemmas.LabelledPush
import Verif.Lemmas.LabelledRefuse
import Verif.Lemmas.LabelledStats
import Verif.Lemmas.LabelledVals
import Verif.Lemmas.Lawful
import Verif.Lemmas.NdArray
import Verif.Lemmas.ObjectCollect
import Verif.Lemmas.ObjectCompose
import Verif.Lemmas.ObjectIndex
import Verif.Lemmas.ObjectMake
import Verif.Lemmas.ObjectMethods
import Verif.Lemmas.ObjectOps
import Verif.Lemmas.ObjectStats
import Verif.Lemmas.ObjectWrap
import Verif.Lemmas.Objects
import Verif.Lemmas.ObjectsStep
import Verif.Lemmas.Options
import Verif.Lemmas.Order
import Verif.Lemmas.Out
import Verif.Lemmas.OutNd
import Verif.Lemmas.ParKernels
import Verif.Lemmas.ParLoops
import Verif.Lemmas.ParRolling
import Verif.Lemmas.Parallel
import Verif.Lemmas.Prob
import Verif.Lemmas.Push
import Verif.Lemmas.PushCov
import Verif.Lemmas.PushHistory
import Verif.Lemmas.PushNd
import Verif.Lemmas.Random
import Verif.Lemmas.Rearrange
import Verif.Lemmas.Reduce
import Verif.Lemmas.Resample
import Verif.Lemmas.Rolling
import Verif.Lemmas.RollingExp
import Verif.Lemmas.Rounding
import Verif.Lemmas.RoundingCarried
import Verif.Lemmas.RoundingDigits
import Verif.Lemmas.RoundingError
import Verif.Lemmas.RoundingLoops
import Verif.Lemmas.RoundingMerge
import Verif.Lemmas.RoundingPairs
import Verif.Lemmas.RoundingUnits
import Verif.Lemmas.Sampler
import Verif.Lemmas.Select
import Verif.Lemmas.SelectAlong
import Verif.Lemmas.SelectLabel
import Verif.Lemmas.Shift
import Verif.Lemmas.Tree
import Verif.Lemmas.Unstack
import Verif.Lemmas.ValsAccept
import Verif.Lemmas.ValsMain
import Verif.Lemmas.ValsOps
import Verif.Lemmas.ValsPrep
import Verif.Lemmas.ValsRolling
import Verif.Lemmas.Window
import Verif.Model.Alias
import Verif.Model.Axes
import Verif.Model.AxisOps
import Verif.Model.Binomial
import Verif.Model.Comoments
import Verif.Model.Convert
import Verif.Model.Coords
import Verif.Model.DTypes
import Verif.Model.Dataset
import Verif.Model.DatasetConvert
import Verif.Model.DatasetViews
import Verif.Model.Errors
import Verif.Model.Factory
import Verif.Model.Freq
import Verif.Model.Grouped
import Verif.Model.Gufunc
import Verif.Model.Interval
import Verif.Model.IntervalLabelled
import Verif.Model.IntervalNd
import Verif.Model.Kernel
import Verif.Model.Labelled
import Verif.Model.LabelledCollect
import Verif.Model.LabelledJoin
import Verif.Model.LabelledMake
import Verif.Model.LabelledNd
import Verif.Model.LabelledObject
import Verif.Model.LabelledPush
import Verif.Model.LabelledStats
import Verif.Model.LabelledVals
import Verif.Model.Loops
import Verif.Model.NdArray
import Verif.Model.ObjectIndex
import Verif.Model.ObjectMake
import Verif.Model.ObjectOps
import Verif.Model.ObjectStats
import Verif.Model.Objects
import Verif.Model.Options
import Verif.Model.Out
import Verif.Model.ParLoops
import Verif.Model.ParRolling
import Verif.Model.Parallel
import Verif.Model.Prob
import Verif.Model.Push
import Verif.Model.PushCov
import Verif.Model.PushNd
import Verif.Model.Random
import Verif.Model.Rolling
import Verif.Model.Rounding
import Verif.Model.Sampler
import Verif.Model.Select
import Verif.Model.SelectLabel
import Verif.Model.Tree
import Verif.Model.Unstack
import Verif.Model.Validate
import Verif.Model.ValsOps
import Verif.Model.Window
import Verif.Props.Accumulate
import Verif.Props.Axes
import Verif.Props.AxisOps
import Verif.Props.Binomial
import Verif.Props.Comoments
import Verif.Props.Convert
import Verif.Props.Coords
import Verif.Props.DTypes
import Verif.Props.Dataset
import Verif.Props.DatasetConvert
import Verif.Props.DatasetViews
import Verif.Props.Equivariance
import Verif.Props.Factory
import Verif.Props.Grouped
import Verif.Props.Indexed
import Verif.Props.Interval
import Verif.Props.IntervalLabelled
import Verif.Props.IntervalNd
import Verif.Props.Labelled
import Verif.Props.LabelledCollect
import Verif.Props.LabelledJoin
import Verif.Props.LabelledMake
import Verif.Props.LabelledNd
import Verif.Props.LabelledObject
import Verif.Props.LabelledPush
import Verif.Props.LabelledStats
import Verif.Props.LabelledVals
import Verif.Props.Merge
import Verif.Props.NdArray
import Verif.Props.ObjectCollect
import Verif.Props.ObjectIndex
import Verif.Props.ObjectMake
import Verif.Props.ObjectOps
import Verif.Props.ObjectStats
import Verif.Props.Objects
import Verif.Props.Options
import Verif.Props.Out
import Verif.Props.ParRolling
import Verif.Props.Parallel
import Verif.Props.Prob
import Verif.Props.PushNd
import Verif.Props.Random
import Verif.Props.Rearrange
import Verif.Props.Resample
import Verif.Props.Rolling
import Verif.Props.Rounding
import Verif.Props.RoundingError
import Verif.Props.RoundingMerge
import Verif.Props.RoundingPairs
import Verif.Props.Sampler
import Verif.Props.Select
import Verif.Props.SelectAlong
import Verif.Props.SelectLabel
import Verif.Props.Unstack
import Verif.Props.Validate
import Verif.Props.ValsOps
import Verif.Props.Window
import Verif.Spec.Axes
import Verif.Spec.AxisOps
import Verif.Spec.Comoments
import Verif.Spec.Convert
import Verif.Spec.Coords
import Verif.Spec.DTypes
import Verif.Spec.Dataset
import Verif.Spec.DatasetConvert
import Verif.Spec.DatasetViews
import Verif.Spec.Factory
import Verif.Spec.Freq
import Verif.Spec.Grouped
import Verif.Spec.Interval
import Verif.Spec.IntervalLabelled
import Verif.Spec.IntervalNd
import Verif.Spec.Labelled
import Verif.Spec.LabelledCollect
import Verif.Spec.LabelledJoin
import Verif.Spec.LabelledMake
import Verif.Spec.LabelledNd
import Verif.Spec.LabelledObject
import Verif.Spec.LabelledPush
import Verif.Spec.LabelledStats
import Verif.Spec.LabelledVals
import Verif.Spec.Moments
import Verif.Spec.NdArray
import Verif.Spec.ObjectIndex
import Verif.Spec.ObjectMake
import Verif.Spec.ObjectOps
import Verif.Spec.ObjectStats
import Verif.Spec.Objects
import Verif.Spec.Options
import Verif.Spec.PushNd
import Verif.Spec.Random
import Verif.Spec.Rearrange
import Verif.Spec.Rolling
import Verif.Spec.Rounding
import Verif.Spec.RoundingError
import Verif.Spec.RoundingMerge
import Verif.Spec.RoundingPairs
import Verif.Spec.Sampler
import Verif.Spec.Select
import Verif.Spec.SelectLabel
import Verif.Spec.ValsOps
import Verif.Spec.Window
