import Verif.Model.Basic
import Verif.Model.Bitarray
import Verif.Spec.Bitarray
import Verif.Proofs.Basic
import Verif.Proofs.Bitarray
import Verif.Props.Bitarray
import Verif.Model.Binning
import Verif.Model.Checks
import Verif.Model.Encoder
import Verif.Spec.Binning
import Verif.Proofs.Binning
import Verif.Props.Binning
import Verif.Spec.Encoder
import Verif.Proofs.Encoder
import Verif.Props.Encoder
import Verif.Spec.Checks
import Verif.Props.Checks
import Verif.Model.Sampling
import Verif.Spec.Sampling
import Verif.Proofs.Sampling
import Verif.Props.Sampling
import Verif.Model.Impurity
import Verif.Model.Task
import Verif.Model.Node
import Verif.Model.Split
import Verif.Model.Tree
import Verif.Model.Grow
import Verif.Model.Forest
import Verif.Spec.Split
import Verif.Spec.Node
import Verif.Spec.Task
import Verif.Spec.Toy
import Verif.Proofs.SplitIndices
import Verif.Proofs.Node
import Verif.Proofs.SplitSearch
import Verif.Proofs.FindSplit
import Verif.Proofs.Task
import Verif.Proofs.Holds
import Verif.Props.Split
import Verif.Spec.Tree
import Verif.Proofs.GTree
import Verif.Proofs.AddNode
import Verif.Proofs.Grow
import Verif.Proofs.Fit
import Verif.Proofs.TreeFacts
import Verif.Proofs.ToyTree
import Verif.Props.Grow
import Verif.Spec.Real
import Verif.Spec.Gain
import Verif.Proofs.RealSplit
import Verif.Proofs.RealFind
import Verif.Proofs.Impurity
import Verif.Proofs.RealTree
import Verif.Proofs.RealToy
import Verif.Props.Gain
import Verif.Proofs.Fisher
import Verif.Proofs.Categorical
import Verif.Proofs.RealPred
import Verif.Props.Categorical
import Verif.Proofs.Climb
import Verif.Proofs.Ctw
import Verif.Proofs.Repeat
import Verif.Props.Ctw
import Verif.Props.NodePred
import Verif.Spec.Forest
import Verif.Proofs.Forest
import Verif.Props.Forest
import Verif.Model.Setters
import Verif.Spec.Setters
import Verif.Proofs.StepSetter
import Verif.Proofs.Lockstep
import Verif.Proofs.DirSetter
import Verif.Proofs.DirFit
import Verif.Proofs.History
import Verif.Props.Setters
import Verif.Model.Pool
import Verif.Proofs.Pool
import Verif.Spec.Scratch
import Verif.Proofs.Scratch
import Verif.Props.Pool
import Verif.Model.Accum
import Verif.Spec.Accum
import Verif.Proofs.Accum
import Verif.Props.Accum
import Verif.Model.Pickle
import Verif.Spec.Pickle
import Verif.Proofs.Pickle
import Verif.Props.Pickle
import Verif.Model.Estimator
import Verif.Spec.Estimator
import Verif.Proofs.EncoderFit
import Verif.Proofs.Estimator
import Verif.Proofs.EstFit
import Verif.Proofs.EstEnd
import Verif.Proofs.EstFail
import Verif.Proofs.EstClass
import Verif.Proofs.EstToy
import Verif.Proofs.EstCols
import Verif.Props.Estimator
import Verif.Proofs.EstSeeds
import Verif.Props.EstimatorRandom
import Verif.Spec.Labels
import Verif.Proofs.Comm
import Verif.Proofs.Labels
import Verif.Proofs.Balanced
import Verif.Props.Labels
import Verif.Spec.EndToEnd
import Verif.Proofs.EndToEnd
import Verif.Proofs.EndForest
import Verif.Props.EndToEnd
import Verif.Props.Batch
import Verif.Model.Inspect
import Verif.Spec.Inspect
import Verif.Proofs.Inspect
import Verif.Proofs.InspectForest
import Verif.Props.Inspect
import Verif.Props.InspectForest
import Verif.Spec.BinPlace
import Verif.Proofs.BinPlace
import Verif.Props.BinPlace
import Verif.Spec.EncoderReject
import Verif.Proofs.EncoderReject
import Verif.Props.EncoderReject
import Verif.Spec.Recode
import Verif.Proofs.Recode
import Verif.Proofs.RecodeFit
import Verif.Spec.RecodeEst
import Verif.Proofs.RecodeEst
import Verif.Props.Recode
import Verif.Proofs.OwnSeed
import Verif.Props.OwnSeed
import Verif.Spec.Rescale
import Verif.Proofs.Rescale
import Verif.Proofs.RescaleGrow
import Verif.Proofs.RescaleTree
import Verif.Proofs.RescaleTask
import Verif.Proofs.RescaleEst
import Verif.Proofs.ShiftToy
import Verif.Props.Rescale
import Verif.Model.Params
import Verif.Spec.Params
import Verif.Proofs.Params
import Verif.Proofs.ParamsEst
import Verif.Props.Params
import Verif.Props.ParamsClone
import Verif.Spec.Greedy
import Verif.Spec.ForestColumns
import Verif.Proofs.Greedy
import Verif.Proofs.ForestColumns
import Verif.Proofs.GreedyFit
import Verif.Props.Greedy
import Verif.Spec.OutOfBag
import Verif.Proofs.OutOfBag
import Verif.Proofs.OutOfBagEst
import Verif.Props.OutOfBag
import Verif.Model.Datasets
import Verif.Model.Signals
import Verif.Spec.Datasets
import Verif.Spec.Signals
import Verif.Proofs.Datasets
import Verif.Proofs.DatasetLeak
import Verif.Proofs.DatasetGini
import Verif.Proofs.Signals
import Verif.Props.Datasets
import Verif.Props.Signals
import Verif.Spec.FullTree
import Verif.Proofs.FullTree
import Verif.Proofs.FullForest
import Verif.Props.FullTree
import Verif.Spec.Constant
import Verif.Proofs.Constant
import Verif.Props.Constant
import Verif.Spec.Oracle
import Verif.Proofs.Oracle
import Verif.Proofs.OracleForest
import Verif.Props.Oracle
import Verif.Proofs.Smooth
import Verif.Props.Smooth
import Verif.Spec.MoreTrees
import Verif.Proofs.MoreTrees
import Verif.Props.MoreTrees
import Verif.Model.EncoderObj
import Verif.Spec.EncoderObj
import Verif.Proofs.EncoderObj
import Verif.Props.EncoderObj
import Verif.Spec.Quantile
import Verif.Proofs.Quantile
import Verif.Props.Quantile
import Verif.Spec.TableForm
import Verif.Proofs.TableForm
import Verif.Props.TableForm
import Verif.Spec.ZeroWeight
import Verif.Proofs.ZeroWeight
import Verif.Props.ZeroWeight
import Verif.Spec.Relabel
import Verif.Proofs.Relabel
import Verif.Props.Relabel
import Verif.Spec.Rename
import Verif.Proofs.Rename
import Verif.Props.Rename
import Verif.Proofs.Permute
import Verif.Proofs.PermuteSplit
import Verif.Proofs.PermuteGrow
import Verif.Proofs.PermuteEst
import Verif.Proofs.PermuteEnc
import Verif.Proofs.PermuteFit
import Verif.Spec.Rounding
import Verif.Proofs.Rounding
import Verif.Spec.Float32
import Verif.Proofs.Float32
import Verif.Proofs.RoundedProba
import Verif.Proofs.Float32Eval
import Verif.Props.Rounding
import Verif.Proofs.LeafGeneric
import Verif.Proofs.ExactSums
import Verif.Proofs.Float32Int
import Verif.Proofs.ExactTree
import Verif.Proofs.ExactForest
import Verif.Proofs.Float32Tree
import Verif.Proofs.Float32Class
import Verif.Props.Float32Fit
import Verif.Props.Float32Class
import Verif.Spec.Cut
import Verif.Proofs.Cut
import Verif.Props.Cut
import Verif.Spec.Beyond
import Verif.Proofs.Beyond
import Verif.Props.Beyond
import Verif.Spec.Size
import Verif.Proofs.Size
import Verif.Props.Size
import Verif.Spec.BestFit
import Verif.Proofs.BestFit
import Verif.Props.BestFit
import Verif.Model.Life
import Verif.Spec.Life
import Verif.Proofs.Life
import Verif.Props.Life
import Verif.Model.Unfitted
import Verif.Spec.Unfitted
import Verif.Proofs.Unfitted
import Verif.Props.Unfitted
import Verif.Spec.Unknown
import Verif.Proofs.Unknown
import Verif.Props.Unknown
import Verif.Spec.Modes
import Verif.Proofs.Modes
import Verif.Props.Modes
import Verif.Model.Slots
import Verif.Spec.Slots
import Verif.Proofs.Slots
import Verif.Props.Slots
import Verif.Spec.Deep
import Verif.Proofs.Deep
import Verif.Props.Deep
import Verif.Spec.Settings
import Verif.Proofs.Settings
import Verif.Proofs.SplitLimit
import Verif.Props.Settings
import Verif.Proofs.RangeF32
import Verif.Props.RangeF32
import Verif.Spec.Leaves
import Verif.Proofs.Leaves
import Verif.Proofs.AnyFloat
import Verif.Props.AnyFloat
import Verif.Spec.Steps
import Verif.Proofs.Steps
import Verif.Props.Steps
import Verif.Spec.Read
import Verif.Proofs.Read
import Verif.Props.Read
import Verif.Spec.Extra
import Verif.Proofs.Extra
import Verif.Proofs.ExtraGrow
import Verif.Proofs.ExtraEst
import Verif.Proofs.ExtraFit
import Verif.Props.Extra
import Verif.Model.Save
import Verif.Spec.Save
import Verif.Proofs.Save
import Verif.Props.Save
import Verif.Model.Fetch
import Verif.Spec.Fetch
import Verif.Proofs.Fetch
import Verif.Props.Fetch
import Verif.Model.FetchPar
import Verif.Proofs.FetchPar
import Verif.Props.FetchPar
import Verif.Model.DatasetObj
import Verif.Spec.DatasetObj
import Verif.Proofs.DatasetObj
import Verif.Props.DatasetObj
import Verif.Model.RawData
import Verif.Spec.RawData
import Verif.Props.RawData
import Verif.Spec.FetchKills
import Verif.Props.FetchKills
import Verif.Model.Describe
import Verif.Spec.Describe
import Verif.Props.Describe
