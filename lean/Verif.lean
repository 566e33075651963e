import Verif.Model.CaserFloat
import Verif.Model.CaserNet
import Verif.Model.CdaeFloat
import Verif.Model.Core
import Verif.Model.Csv
import Verif.Model.CsvBoth
import Verif.Model.CustomDeep
import Verif.Model.Db
import Verif.Model.DbCache
import Verif.Model.DbClosed
import Verif.Model.DbEval
import Verif.Model.DbEvalNets
import Verif.Model.DbGen
import Verif.Model.DbIndex
import Verif.Model.DbKnn
import Verif.Model.DbList
import Verif.Model.DbLocks
import Verif.Model.DbNets
import Verif.Model.DbSave
import Verif.Model.DbSplits
import Verif.Model.DbThreads
import Verif.Model.DbVec
import Verif.Model.Diverged
import Verif.Model.DmfFloat
import Verif.Model.DmfNet
import Verif.Model.DmfTower
import Verif.Model.Download
import Verif.Model.Encoding
import Verif.Model.EvalCall
import Verif.Model.Evaluation
import Verif.Model.Files
import Verif.Model.Fit
import Verif.Model.Fitted
import Verif.Model.Float
import Verif.Model.FloatCosine
import Verif.Model.FloatEval
import Verif.Model.FloatFit
import Verif.Model.FloatKnn
import Verif.Model.FloatMetrics
import Verif.Model.Knn
import Verif.Model.KnnMem
import Verif.Model.Logging
import Verif.Model.Loss
import Verif.Model.Mem
import Verif.Model.MemCreate
import Verif.Model.MemHeap
import Verif.Model.MemOom
import Verif.Model.MemVecs
import Verif.Model.MetricCall
import Verif.Model.Metrics
import Verif.Model.Missing
import Verif.Model.NanRank
import Verif.Model.Nets
import Verif.Model.Optimizer
import Verif.Model.Predictive
import Verif.Model.Progress
import Verif.Model.QueryText
import Verif.Model.Random
import Verif.Model.Recommender
import Verif.Model.Refit
import Verif.Model.Sampler
import Verif.Model.SaveLoad
import Verif.Model.Seeded
import Verif.Model.Similarity
import Verif.Model.Splits
import Verif.Model.Sql
import Verif.Model.SqlStmt
import Verif.Model.TableNames
import Verif.Model.Threads
import Verif.Model.Training
import Verif.Model.UniqueArg
import Verif.Model.Validation
import Verif.Model.ValueGen
import Verif.Spec.Batches
import Verif.Spec.Both
import Verif.Spec.CaserFloat
import Verif.Spec.CaserNet
import Verif.Spec.CdaeFloat
import Verif.Spec.Csv
import Verif.Spec.CsvBoth
import Verif.Spec.Db
import Verif.Spec.DbCache
import Verif.Spec.DbEval
import Verif.Spec.DbEvalNets
import Verif.Spec.DbGen
import Verif.Spec.DbKnn
import Verif.Spec.DbList
import Verif.Spec.DbLocks
import Verif.Spec.DbNets
import Verif.Spec.DbSplits
import Verif.Spec.DbVec
import Verif.Spec.Descent
import Verif.Spec.DescentCaser
import Verif.Spec.DmfFloat
import Verif.Spec.DmfNet
import Verif.Spec.DmfTower
import Verif.Spec.Download
import Verif.Spec.Epochs
import Verif.Spec.EvalCall
import Verif.Spec.Evaluation
import Verif.Spec.Files
import Verif.Spec.Fit
import Verif.Spec.Float
import Verif.Spec.FloatCosine
import Verif.Spec.FloatEval
import Verif.Spec.FloatFit
import Verif.Spec.FloatKnn
import Verif.Spec.FloatMetrics
import Verif.Spec.HeldOut
import Verif.Spec.Knn
import Verif.Spec.Logging
import Verif.Spec.Mem
import Verif.Spec.MemHeap
import Verif.Spec.MemOom
import Verif.Spec.MemVecs
import Verif.Spec.MetricCall
import Verif.Spec.Metrics
import Verif.Spec.Optimizer
import Verif.Spec.Predictive
import Verif.Spec.Progress
import Verif.Spec.Promotion
import Verif.Spec.Query
import Verif.Spec.Recommender
import Verif.Spec.Renaming
import Verif.Spec.RowOrder
import Verif.Spec.Sampler
import Verif.Spec.SaveLoad
import Verif.Spec.ScoreOrder
import Verif.Spec.Similarity
import Verif.Spec.Splits
import Verif.Spec.Sql
import Verif.Spec.SqlStmt
import Verif.Spec.TableNames
import Verif.Spec.Training
import Verif.Spec.Transpose
import Verif.Spec.Untouched
import Verif.Lemmas.Both
import Verif.Lemmas.CaserFloat
import Verif.Lemmas.CaserNet
import Verif.Lemmas.CdaeFloat
import Verif.Lemmas.Csv
import Verif.Lemmas.CsvBoth
import Verif.Lemmas.DbApply
import Verif.Lemmas.DbCache
import Verif.Lemmas.DbCons
import Verif.Lemmas.DbEval
import Verif.Lemmas.DbEvalNets
import Verif.Lemmas.DbEvalTask
import Verif.Lemmas.DbGen
import Verif.Lemmas.DbHistory
import Verif.Lemmas.DbIds
import Verif.Lemmas.DbIso
import Verif.Lemmas.DbKnn
import Verif.Lemmas.DbKnnFit
import Verif.Lemmas.DbKnnRank
import Verif.Lemmas.DbList
import Verif.Lemmas.DbNets
import Verif.Lemmas.DbOps
import Verif.Lemmas.DbOpt
import Verif.Lemmas.DbRead
import Verif.Lemmas.DbReg
import Verif.Lemmas.DbSampler
import Verif.Lemmas.DbSplits
import Verif.Lemmas.DbStep
import Verif.Lemmas.DbTemp
import Verif.Lemmas.DbThreads
import Verif.Lemmas.DbTyped
import Verif.Lemmas.DbVec
import Verif.Lemmas.DbView
import Verif.Lemmas.Dedup
import Verif.Lemmas.Descent
import Verif.Lemmas.DescentCaser
import Verif.Lemmas.DescentCdae
import Verif.Lemmas.DescentDmf
import Verif.Lemmas.DmfFloat
import Verif.Lemmas.DmfNet
import Verif.Lemmas.DmfTower
import Verif.Lemmas.Epochs
import Verif.Lemmas.EpochsCaser
import Verif.Lemmas.EpochsDmf
import Verif.Lemmas.Evaluation
import Verif.Lemmas.Files
import Verif.Lemmas.Fit
import Verif.Lemmas.Float
import Verif.Lemmas.FloatCos
import Verif.Lemmas.FloatCosine
import Verif.Lemmas.FloatEval
import Verif.Lemmas.FloatFit
import Verif.Lemmas.FloatKnn
import Verif.Lemmas.FloatKnnFit
import Verif.Lemmas.FloatMetrics
import Verif.Lemmas.FloatMsd
import Verif.Lemmas.FloatOff
import Verif.Lemmas.FloatPearson
import Verif.Lemmas.FloatShrink
import Verif.Lemmas.FloatSim
import Verif.Lemmas.Gen
import Verif.Lemmas.Knn
import Verif.Lemmas.KnnMem
import Verif.Lemmas.Matrix
import Verif.Lemmas.MemHeap
import Verif.Lemmas.MemIds
import Verif.Lemmas.MemQuery
import Verif.Lemmas.MemRead
import Verif.Lemmas.MemWritten
import Verif.Lemmas.Missing
import Verif.Lemmas.MissingPresent
import Verif.Lemmas.NanRank
import Verif.Lemmas.Optimizer
import Verif.Lemmas.Progress
import Verif.Lemmas.ProgressEnd
import Verif.Lemmas.Random
import Verif.Lemmas.Recommender
import Verif.Lemmas.RowOrder
import Verif.Lemmas.SaveLoad
import Verif.Lemmas.Similarity
import Verif.Lemmas.Splits
import Verif.Lemmas.Sql
import Verif.Lemmas.SqlLex
import Verif.Lemmas.SqlStmt
import Verif.Lemmas.Text
import Verif.Lemmas.Threads
import Verif.Lemmas.Training
import Verif.Lemmas.Untouched
import Verif.Props.Agree
import Verif.Props.Batches
import Verif.Props.Both
import Verif.Props.Caser
import Verif.Props.CaserFloat
import Verif.Props.CaserNet
import Verif.Props.Cdae
import Verif.Props.CdaeFloat
import Verif.Props.Csv
import Verif.Props.CsvBoth
import Verif.Props.DbApply
import Verif.Props.DbCache
import Verif.Props.DbClosed
import Verif.Props.DbEval
import Verif.Props.DbEvalNets
import Verif.Props.DbFilters
import Verif.Props.DbGen
import Verif.Props.DbHistory
import Verif.Props.DbIndex
import Verif.Props.DbKnn
import Verif.Props.DbList
import Verif.Props.DbLocks
import Verif.Props.DbLookup
import Verif.Props.DbNets
import Verif.Props.DbSave
import Verif.Props.DbShared
import Verif.Props.DbSplits
import Verif.Props.DbThreads
import Verif.Props.DbVec
import Verif.Props.Descent
import Verif.Props.DescentCaser
import Verif.Props.DescentDmf
import Verif.Props.Diverged
import Verif.Props.Dmf
import Verif.Props.DmfFloat
import Verif.Props.DmfNet
import Verif.Props.DmfTower
import Verif.Props.Download
import Verif.Props.Encoding
import Verif.Props.Epochs
import Verif.Props.EpochsDeep
import Verif.Props.EvalCall
import Verif.Props.EvalTask
import Verif.Props.EvalUsers
import Verif.Props.Evaluation
import Verif.Props.Files
import Verif.Props.Fit
import Verif.Props.FitLog
import Verif.Props.FitStop
import Verif.Props.Float
import Verif.Props.FloatCosine
import Verif.Props.FloatEval
import Verif.Props.FloatFit
import Verif.Props.FloatKnn
import Verif.Props.FloatMetrics
import Verif.Props.FloatSim
import Verif.Props.Generators
import Verif.Props.HeldOut
import Verif.Props.Knn
import Verif.Props.KnnMem
import Verif.Props.ListSampler
import Verif.Props.Logging
import Verif.Props.Loss
import Verif.Props.MatrixSplit
import Verif.Props.MeanTargets
import Verif.Props.MemCopies
import Verif.Props.MemCreate
import Verif.Props.MemOom
import Verif.Props.MemOps
import Verif.Props.MemVecs
import Verif.Props.MetricCall
import Verif.Props.Metrics
import Verif.Props.Missing
import Verif.Props.NanRank
import Verif.Props.NanRankNumbers
import Verif.Props.Ndcg
import Verif.Props.Optimizer
import Verif.Props.Perfect
import Verif.Props.Predictive
import Verif.Props.Progress
import Verif.Props.Promotion
import Verif.Props.Query
import Verif.Props.QueryIds
import Verif.Props.QueryNumbers
import Verif.Props.RandomSplit
import Verif.Props.Recommender
import Verif.Props.Refit
import Verif.Props.Registered
import Verif.Props.Regularized
import Verif.Props.Renaming
import Verif.Props.RowOrder
import Verif.Props.SaveLoad
import Verif.Props.ScoreOrder
import Verif.Props.Seeded
import Verif.Props.Similarity
import Verif.Props.SplitThreads
import Verif.Props.Splits
import Verif.Props.Sql
import Verif.Props.SqlOrder
import Verif.Props.SqlStmt
import Verif.Props.TableNames
import Verif.Props.Training
import Verif.Props.TrainingData
import Verif.Props.Transpose
import Verif.Props.UniqueBoth
import Verif.Props.Untouched
import Verif.Props.Validation
import Verif.Props.ValueGen
import Verif.Props.Vectors
