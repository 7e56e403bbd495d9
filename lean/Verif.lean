import Verif.Basic
import Verif.Model.Partition
import Verif.Spec.Partition
import Verif.Lemmas.Partition
import Verif.Props.Partition
import Verif.Model.Par
import Verif.Lemmas.Par
import Verif.Model.Clusters
import Verif.Spec.Membership
import Verif.Lemmas.Clusters
import Verif.Lemmas.Membership
import Verif.Props.Clusters
import Verif.Model.Kmeans
import Verif.Spec.Lloyd
import Verif.Spec.Agreement
import Verif.Lemmas.Split
import Verif.Lemmas.Kmeans
import Verif.Lemmas.Lloyd
import Verif.Props.Kmeans
import Verif.Model.DistMatrix
import Verif.Lemmas.DistMatrix
import Verif.Model.Prune
import Verif.Lemmas.ParDet
import Verif.Lemmas.Prune
import Verif.Spec.DistMatrix
import Verif.Props.DistMatrix
import Verif.Lemmas.PruneRun
import Verif.Props.Prune
import Verif.Model.Dist
import Verif.Lemmas.Dist
import Verif.Props.Dist
import Verif.Model.Distr
import Verif.Lemmas.Distr
import Verif.Lemmas.DistrPrune
import Verif.Props.Distr
import Verif.Model.Init
import Verif.Lemmas.Init
import Verif.Props.Init
import Verif.Model.Barrier
import Verif.Spec.Barrier
import Verif.Lemmas.Barrier
import Verif.Props.Barrier
import Verif.Model.MiniBatch
import Verif.Lemmas.MiniBatch
import Verif.Props.MiniBatch
import Verif.Model.IdGen
import Verif.Props.IdGen
import Verif.Model.Compact
import Verif.Lemmas.Compact
import Verif.Props.Compact
import Verif.Model.VMap
import Verif.Lemmas.VMap
import Verif.Props.VMap
import Verif.Model.MultiStart
import Verif.Props.MultiStart
import Verif.Model.Linalg
import Verif.Lemmas.Linalg
import Verif.Props.Linalg
import Verif.Spec.Hier
import Verif.Spec.HierStart
import Verif.Model.Hclust
import Verif.Lemmas.HclustEM
import Verif.Lemmas.HclustIter
import Verif.Lemmas.HclustSplit
import Verif.Lemmas.HclustRun
import Verif.Lemmas.HclustLoop
import Verif.Props.Hclust
import Verif.Model.Skmeans
import Verif.Spec.Scale
import Verif.Lemmas.Skmeans
import Verif.Props.Skmeans
import Verif.Model.Medoid
import Verif.Spec.Medoid
import Verif.Lemmas.Medoid
import Verif.Props.Medoid
import Verif.Model.Omp
import Verif.Lemmas.Omp
import Verif.Props.Omp
import Verif.Model.Fcm
import Verif.Spec.Fuzzy
import Verif.Lemmas.Fcm
import Verif.Props.Fcm
import Verif.Model.Dense
import Verif.Spec.Dense
import Verif.Lemmas.Dense
import Verif.Props.Dense
import Verif.Model.Xmeans
import Verif.Lemmas.Xmeans
import Verif.Lemmas.XmeansTaken
import Verif.Lemmas.XmeansMean
import Verif.Lemmas.XmeansRun
import Verif.Props.Xmeans
import Verif.Model.Io
import Verif.Spec.Io
import Verif.Lemmas.Io
import Verif.Props.Io
import Verif.Spec.Repro
import Verif.Lemmas.Repro
import Verif.Lemmas.ReproRuns
import Verif.Props.Repro
import Verif.Spec.Rounding
import Verif.Lemmas.AnyArith
import Verif.Lemmas.Rounding
import Verif.Props.Rounding
import Verif.Model.Score
import Verif.Spec.Score
import Verif.Lemmas.AndersonDarling
import Verif.Lemmas.Score
import Verif.Lemmas.Normal
import Verif.Props.Score
import Verif.Model.Project
import Verif.Lemmas.Project
import Verif.Props.Project
import Verif.Spec.Seeding
import Verif.Spec.Start
import Verif.Spec.Ieee
import Verif.Model.Driver
import Verif.Model.PrunedDriver
import Verif.Spec.PrunedStart
import Verif.Model.Gmm
import Verif.Lemmas.Driver
import Verif.Props.Driver
import Verif.Lemmas.PrunedDriver
import Verif.Props.PrunedDriver
import Verif.Lemmas.Gmm
import Verif.Lemmas.Ext
import Verif.Props.Gmm
import Verif.Model.DistrDriver
import Verif.Spec.JobStart
import Verif.Lemmas.DistrDriver
import Verif.Props.DistrDriver
import Verif.Lemmas.DistrPrunedDriver
import Verif.Props.DistrPrunedDriver
import Verif.Model.ScaledDriver
import Verif.Lemmas.ScaledDriver
import Verif.Props.ScaledDriver
import Verif.Model.FuzzyDriver
import Verif.Props.FuzzyDriver
import Verif.Model.MedoidDriver
import Verif.Props.MedoidDriver
import Verif.Spec.HierCall
import Verif.Model.HierDriver
import Verif.Lemmas.HierDriver
import Verif.Props.HierDriver
import Verif.Model.OmpDriver
import Verif.Spec.OmpCall
import Verif.Lemmas.OmpDriver
import Verif.Props.OmpDriver
import Verif.Spec.Bisect
import Verif.Lemmas.Bisect
import Verif.Props.Bisect
import Verif.Lemmas.HierCause
import Verif.Props.HierCause
import Verif.Model.MiniBatchDriver
import Verif.Spec.MiniBatch
import Verif.Lemmas.MiniBatchDriver
import Verif.Props.MiniBatchDriver
import Verif.Model.SeedDriver
import Verif.Spec.BestStart
import Verif.Props.SeedDriver
import Verif.Model.DistAny
import Verif.Spec.NearLloyd
import Verif.Spec.Double
import Verif.Lemmas.NearLloyd
import Verif.Lemmas.Double
import Verif.Props.NearLloyd
import Verif.Spec.Separated
import Verif.Lemmas.Separated
import Verif.Props.Separated
import Verif.Model.Cli
import Verif.Model.CliMain
import Verif.Spec.Cli
import Verif.Spec.CliMain
import Verif.Lemmas.Cli
import Verif.Props.Cli
import Verif.Model.KnordCli
import Verif.Spec.KnordCli
import Verif.Props.KnordCli
import Verif.Lemmas.DistrNear
import Verif.Spec.NearJob
import Verif.Props.DistrNear
import Verif.Lemmas.PruneNear
import Verif.Lemmas.PruneSum
import Verif.Lemmas.DistrPruneNear
import Verif.Props.DistrPrunedNear
import Verif.Model.FlatClusters
import Verif.Spec.Cells
import Verif.Spec.FlatClusters
import Verif.Lemmas.FlatClusters
import Verif.Props.FlatClusters
import Verif.Model.PairTable
import Verif.Spec.PairTable
import Verif.Props.PairTable
import Verif.Model.PruneStats
import Verif.Spec.PruneStats
import Verif.Props.PruneStats
import Verif.Model.HierHelpers
import Verif.Props.HierHelpers
import Verif.Model.Compare
import Verif.Props.Compare
import Verif.Model.TreeSize
import Verif.Props.TreeSize
import Verif.Model.DataUtil
import Verif.Spec.DataUtil
import Verif.Props.DataUtil
import Verif.Spec.NearStart
import Verif.Lemmas.InitNear
import Verif.Lemmas.SeedNear
import Verif.Lemmas.DoubleDriver
import Verif.Props.DoubleDriver
import Verif.Spec.NearOmp
import Verif.Lemmas.OmpNear
import Verif.Props.OmpDouble
import Verif.Model.JobOrder
import Verif.Spec.NearJobStart
import Verif.Lemmas.JobNear
import Verif.Lemmas.JobSeed
import Verif.Props.JobDouble
import Verif.Lemmas.JobPrune
import Verif.Spec.NearJobPruned
import Verif.Props.JobPrunedDouble
import Verif.Lemmas.PruneCall
import Verif.Lemmas.PruneCallRun
import Verif.Spec.NearPruned
import Verif.Props.PrunedDouble
import Verif.Lemmas.MiniBatchNear
import Verif.Lemmas.MiniBatchNearRun
import Verif.Spec.NearMiniBatch
import Verif.Props.MiniBatchDouble
import Verif.Model.GmmDriver
import Verif.Spec.GmmDriver
import Verif.Props.GmmDriver
import Verif.Spec.NearScaled
import Verif.Lemmas.ScaledNear
import Verif.Props.ScaledDouble
import Verif.Spec.NearMedoid
import Verif.Lemmas.MedoidNear
import Verif.Props.MedoidDouble
import Verif.Spec.NearFuzzy
import Verif.Lemmas.FuzzyNear
import Verif.Props.FuzzyDouble
import Verif.Spec.NearBest
import Verif.Lemmas.BestNear
import Verif.Props.BestDouble
import Verif.Props.ExactDouble
