import Verif.Model.Api
import Verif.Model.Basic
import Verif.Model.Child
import Verif.Model.ClsFloat
import Verif.Model.Ctor
import Verif.Model.Hyper
import Verif.Model.HyperInt
import Verif.Model.HyperX
import Verif.Model.IntTarget
import Verif.Model.IntTy
import Verif.Model.Level
import Verif.Model.Object
import Verif.Model.Optimize
import Verif.Model.Overflow
import Verif.Model.Perp
import Verif.Model.Predict
import Verif.Model.Real
import Verif.Model.RegFloat
import Verif.Model.Rounding
import Verif.Model.Series
import Verif.Model.SeriesHyper
import Verif.Model.Sparse
import Verif.Model.SparseHyper
import Verif.Model.Sphere
import Verif.Model.Str
import Verif.Model.Target
import Verif.Model.Tree
import Verif.Model.Verbose
import Verif.Model.Version
import Verif.Model.XF
import Verif.Model.XTarget
import Verif.Spec.Answers
import Verif.Spec.Api
import Verif.Spec.Closed
import Verif.Spec.ClsFloat
import Verif.Spec.Copies
import Verif.Spec.DefaultPrior
import Verif.Spec.Delta
import Verif.Spec.Evidence
import Verif.Spec.FloatSum
import Verif.Spec.Hyper
import Verif.Spec.HyperClosed
import Verif.Spec.HyperMove
import Verif.Spec.HyperX
import Verif.Spec.Image
import Verif.Spec.Importance
import Verif.Spec.Joint
import Verif.Spec.MaxLik
import Verif.Spec.MaxNormal
import Verif.Spec.Noise
import Verif.Spec.NonFinite
import Verif.Spec.Overflow
import Verif.Spec.Paths
import Verif.Spec.Perp
import Verif.Spec.Prob
import Verif.Spec.Prune
import Verif.Spec.PruneShift
import Verif.Spec.QuasiSearch
import Verif.Spec.RandomSearch
import Verif.Spec.RegScore
import Verif.Spec.Relabel
import Verif.Spec.Rounding
import Verif.Spec.Routed
import Verif.Spec.Shape
import Verif.Spec.Sparse
import Verif.Spec.SphereLaw
import Verif.Spec.Str
import Verif.Spec.Target
import Verif.Spec.Temper
import Verif.Spec.TrainError
import Verif.Spec.Trim
import Verif.Spec.Verbose
import Verif.Spec.Version
import Verif.Spec.Walk
import Verif.Spec.XTarget
import Verif.Lemmas.Api
import Verif.Lemmas.Approx
import Verif.Lemmas.At
import Verif.Lemmas.Built
import Verif.Lemmas.Cast
import Verif.Lemmas.Closed
import Verif.Lemmas.ClsFloat
import Verif.Lemmas.Copies
import Verif.Lemmas.Descent
import Verif.Lemmas.FinScores
import Verif.Lemmas.Fit
import Verif.Lemmas.Gaussian
import Verif.Lemmas.Hyper
import Verif.Lemmas.HyperCast
import Verif.Lemmas.HyperFin
import Verif.Lemmas.HyperFit
import Verif.Lemmas.HyperMove
import Verif.Lemmas.HyperNode
import Verif.Lemmas.HyperNoise
import Verif.Lemmas.HyperRows
import Verif.Lemmas.HyperSample
import Verif.Lemmas.HyperTotal
import Verif.Lemmas.HyperTrim
import Verif.Lemmas.HyperX
import Verif.Lemmas.Image
import Verif.Lemmas.MaxLik
import Verif.Lemmas.MaxLikList
import Verif.Lemmas.MaxNormal
import Verif.Lemmas.Measure
import Verif.Lemmas.Noise
import Verif.Lemmas.NonFinite
import Verif.Lemmas.Npy
import Verif.Lemmas.Object
import Verif.Lemmas.Ops
import Verif.Lemmas.Optimize
import Verif.Lemmas.Overflow
import Verif.Lemmas.Paths
import Verif.Lemmas.PathsExact
import Verif.Lemmas.PathsMap
import Verif.Lemmas.Pep440
import Verif.Lemmas.PerpFit
import Verif.Lemmas.Predict
import Verif.Lemmas.ProbSim
import Verif.Lemmas.Prog
import Verif.Lemmas.ProgHist
import Verif.Lemmas.ProgShift
import Verif.Lemmas.Prune
import Verif.Lemmas.Real
import Verif.Lemmas.RealSample
import Verif.Lemmas.RegFloat
import Verif.Lemmas.RegSample
import Verif.Lemmas.RegScore
import Verif.Lemmas.Rounding
import Verif.Lemmas.SameFreq
import Verif.Lemmas.Sample
import Verif.Lemmas.Shape
import Verif.Lemmas.Sim
import Verif.Lemmas.Simplex
import Verif.Lemmas.SphereLaw
import Verif.Lemmas.Subtree
import Verif.Lemmas.SweepStable
import Verif.Lemmas.Target
import Verif.Lemmas.Trim
import Verif.Lemmas.TwoPoint
import Verif.Lemmas.Version
import Verif.Lemmas.Walk
import Verif.Lemmas.Weyl
import Verif.Lemmas.WeylCube
import Verif.Lemmas.XF
import Verif.Lemmas.XTarget
import Verif.Props.Anneal
import Verif.Props.Api
import Verif.Props.Attributes
import Verif.Props.Bind
import Verif.Props.Child
import Verif.Props.Closed
import Verif.Props.ClsFloat
import Verif.Props.ColumnTies
import Verif.Props.Copies
import Verif.Props.Ctor
import Verif.Props.DefaultPrior
import Verif.Props.Delta
import Verif.Props.DirichletEvidence
import Verif.Props.Dtype
import Verif.Props.EndToEnd
import Verif.Props.Equidist
import Verif.Props.Equivariance
import Verif.Props.Evidence
import Verif.Props.EvidenceFit
import Verif.Props.Fit
import Verif.Props.Greedy
import Verif.Props.Hyper
import Verif.Props.HyperClosed
import Verif.Props.HyperGroups
import Verif.Props.HyperInt
import Verif.Props.HyperJoint
import Verif.Props.HyperLeaf
import Verif.Props.HyperMonotone
import Verif.Props.HyperNoise
import Verif.Props.HyperRelabel
import Verif.Props.HyperRows
import Verif.Props.HyperScore
import Verif.Props.HyperShape
import Verif.Props.HyperTransform
import Verif.Props.HyperX
import Verif.Props.IntTarget
import Verif.Props.Joint
import Verif.Props.Likelihood
import Verif.Props.MaxLik
import Verif.Props.MaxNormal
import Verif.Props.Measure
import Verif.Props.Monotone
import Verif.Props.Names
import Verif.Props.Noise
import Verif.Props.NonFinite
import Verif.Props.Object
import Verif.Props.Optimize
import Verif.Props.Overflow
import Verif.Props.Paths
import Verif.Props.Predict
import Verif.Props.Prune
import Verif.Props.PruneShift
import Verif.Props.PruneShiftHyper
import Verif.Props.QuasiSearch
import Verif.Props.RandomLeaf
import Verif.Props.RandomSearch
import Verif.Props.RegFloat
import Verif.Props.RegScore
import Verif.Props.Region
import Verif.Props.Regression
import Verif.Props.RelabelPrune
import Verif.Props.Rounding
import Verif.Props.RowMajor
import Verif.Props.SameFreq
import Verif.Props.SameMoments
import Verif.Props.Series
import Verif.Props.SeriesHyper
import Verif.Props.Sparse
import Verif.Props.SparseHyper
import Verif.Props.Sphere
import Verif.Props.SphereCover
import Verif.Props.SphereLaw
import Verif.Props.Str
import Verif.Props.StrRoute
import Verif.Props.Subtree
import Verif.Props.Temper
import Verif.Props.TrainError
import Verif.Props.Transform
import Verif.Props.Verbose
import Verif.Props.Version
import Verif.Props.VersionImport
import Verif.Props.Wrappers
import Verif.Props.XTarget
