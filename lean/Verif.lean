import Verif.Lemmas.Assembly
import Verif.Lemmas.BatchAll
import Verif.Lemmas.BatchCells
import Verif.Lemmas.BatchFeed
import Verif.Lemmas.BufferShape
import Verif.Lemmas.Calculator
import Verif.Lemmas.CaseExamples
import Verif.Lemmas.Cases
import Verif.Lemmas.ColumnCache
import Verif.Lemmas.ColumnSizes
import Verif.Lemmas.ConsumerPairs
import Verif.Lemmas.EndToEnd
import Verif.Lemmas.EuclideanPairs
import Verif.Lemmas.Filter
import Verif.Lemmas.FilteredCases
import Verif.Lemmas.FilteredGens
import Verif.Lemmas.Float
import Verif.Lemmas.FloatArith
import Verif.Lemmas.FloatCases
import Verif.Lemmas.FloatStream
import Verif.Lemmas.Grid
import Verif.Lemmas.Indifferent
import Verif.Lemmas.Mimic
import Verif.Lemmas.NearCases
import Verif.Lemmas.NearFilter
import Verif.Lemmas.NearServes
import Verif.Lemmas.OstinatoAnytime
import Verif.Lemmas.OstinatoSubset
import Verif.Lemmas.Profile
import Verif.Lemmas.RBGood
import Verif.Lemmas.Ranges
import Verif.Lemmas.ReservoirBatch
import Verif.Lemmas.ReservoirMixed
import Verif.Lemmas.RingBuffer
import Verif.Lemmas.RoundedBatch
import Verif.Lemmas.RoundedColumn
import Verif.Lemmas.RoundedExact
import Verif.Lemmas.RoundedRuns
import Verif.Lemmas.RoundedZNorm
import Verif.Lemmas.Rounding
import Verif.Lemmas.Serves
import Verif.Lemmas.Sessions
import Verif.Lemmas.SessionsBatch
import Verif.Lemmas.Shapes
import Verif.Lemmas.ShortestPath
import Verif.Lemmas.Slices
import Verif.Lemmas.Solo
import Verif.Lemmas.SortedSums
import Verif.Lemmas.StreamFeed
import Verif.Lemmas.StreamMatrix
import Verif.Lemmas.StreamSeen
import Verif.Lemmas.StreamTrim
import Verif.Lemmas.Valmod
import Verif.Lemmas.Windows
import Verif.Lemmas.ZNorm
import Verif.Model.Assembly
import Verif.Model.Batch
import Verif.Model.Calculator
import Verif.Model.ColumnCache
import Verif.Model.Consumers
import Verif.Model.ContextManager
import Verif.Model.ContextualMP
import Verif.Model.DistanceMatrix
import Verif.Model.EndToEnd
import Verif.Model.Euclidean
import Verif.Model.Filter
import Verif.Model.Filtered
import Verif.Model.FloatBatch
import Verif.Model.GenOps
import Verif.Model.Generator
import Verif.Model.GeneratorIds
import Verif.Model.Insights
import Verif.Model.Interrupt
import Verif.Model.MathTricks
import Verif.Model.MatrixProfile
import Verif.Model.Mixed
import Verif.Model.Multidimensional
import Verif.Model.Ostinato
import Verif.Model.OstinatoAnytime
import Verif.Model.OstinatoSubset
import Verif.Model.Progress
import Verif.Model.RadiusProfile
import Verif.Model.Rejected
import Verif.Model.Reservoir
import Verif.Model.ReservoirConsumer
import Verif.Model.RingBuffer
import Verif.Model.RoundedEuclidean
import Verif.Model.RoundedStats
import Verif.Model.RoundedZNorm
import Verif.Model.Sessions
import Verif.Model.SmallParts
import Verif.Model.ThresholdCounter
import Verif.Model.Util
import Verif.Model.Valmod
import Verif.Model.ZNormEuclidean
import Verif.Props.AffineMotifs
import Verif.Props.Anytime
import Verif.Props.BatchContextual
import Verif.Props.BatchCounts
import Verif.Props.BatchFeed
import Verif.Props.BatchMatrix
import Verif.Props.BatchProfile
import Verif.Props.BatchRadius
import Verif.Props.BatchReservoir
import Verif.Props.Chunks
import Verif.Props.Columns
import Verif.Props.Consensus
import Verif.Props.ConsensusProfiles
import Verif.Props.ConsumersAgree
import Verif.Props.ContextManager
import Verif.Props.ContextUnion
import Verif.Props.ContextualMP
import Verif.Props.ContextualProfile
import Verif.Props.DataContextual
import Verif.Props.DataCounts
import Verif.Props.DataMulti
import Verif.Props.Diagonals
import Verif.Props.DistanceMatrix
import Verif.Props.DistancedThreshold
import Verif.Props.EndToEnd
import Verif.Props.Euclidean
import Verif.Props.Filter
import Verif.Props.FilterCalculator
import Verif.Props.FilterClear
import Verif.Props.FilteredContextual
import Verif.Props.FilteredCounts
import Verif.Props.FilteredFeed
import Verif.Props.FilteredMatrix
import Verif.Props.FilteredMulti
import Verif.Props.FilteredProfile
import Verif.Props.FilteredRadius
import Verif.Props.FloatCounts
import Verif.Props.FloatMatrix
import Verif.Props.FloatNumbers
import Verif.Props.FloatProfile
import Verif.Props.FloatStream
import Verif.Props.FloatStreamNumbers
import Verif.Props.GeneratorIds
import Verif.Props.Growth
import Verif.Props.IdOrder
import Verif.Props.Insights
import Verif.Props.Interrupt
import Verif.Props.Invariance
import Verif.Props.LateConsumers
import Verif.Props.LateContextual
import Verif.Props.LateMulti
import Verif.Props.MarkedValues
import Verif.Props.MathTricks
import Verif.Props.MatrixProfile
import Verif.Props.Mixed
import Verif.Props.Motif
import Verif.Props.MotifLengths
import Verif.Props.MultiProfile
import Verif.Props.Multidimensional
import Verif.Props.NearFeed
import Verif.Props.NearMatrix
import Verif.Props.NoExclusion
import Verif.Props.Ostinato
import Verif.Props.OstinatoAnytime
import Verif.Props.OstinatoSubset
import Verif.Props.Paths
import Verif.Props.Progress
import Verif.Props.RadiusProfile
import Verif.Props.ReadOff
import Verif.Props.Rejected
import Verif.Props.Reservoir
import Verif.Props.Reversal
import Verif.Props.RingBuffer
import Verif.Props.RoundedColumn
import Verif.Props.RoundedDiagonal
import Verif.Props.RoundedExact
import Verif.Props.RoundedStats
import Verif.Props.RoundedZNorm
import Verif.Props.RoundedZNormError
import Verif.Props.RoundedZNormRange
import Verif.Props.Separate
import Verif.Props.Sessions
import Verif.Props.SessionsLate
import Verif.Props.SessionsProfile
import Verif.Props.SessionsStream
import Verif.Props.ShiftingProfile
import Verif.Props.SlidingWindow
import Verif.Props.SmallParts
import Verif.Props.StreamColumns
import Verif.Props.StreamContextual
import Verif.Props.StreamFeed
import Verif.Props.StreamMatrix
import Verif.Props.StreamProfile
import Verif.Props.Streaming
import Verif.Props.Substitution
import Verif.Props.Swap
import Verif.Props.ThresholdCounter
import Verif.Props.TimeReversal
import Verif.Props.Triangle
import Verif.Props.Valmod
import Verif.Props.ValmodFlat
import Verif.Props.ValmodLists
import Verif.Props.ValmodMain
import Verif.Props.ValmodNoise
import Verif.Props.ZNorm
import Verif.Props.ZNormLaws
import Verif.Py
import Verif.PyArith
import Verif.Rnd
import Verif.Rounding
import Verif.Spec.Asked
import Verif.Spec.BatchFeed
import Verif.Spec.Cells
import Verif.Spec.Deliveries
import Verif.Spec.Events
import Verif.Spec.Filter
import Verif.Spec.FloatBatch
import Verif.Spec.Gen
import Verif.Spec.Indifferent
import Verif.Spec.NearFeed
import Verif.Spec.Nearest
import Verif.Spec.Ostinato
import Verif.Spec.Paths
import Verif.Spec.RoundedStats
import Verif.Spec.Rounding
import Verif.Spec.Sessions
import Verif.Spec.Stats
import Verif.Spec.Stream
import Verif.Spec.StreamFeed
import Verif.Spec.StreamMatrix
import Verif.Spec.Valmod
import Verif.Spec.Window
import Verif.Spec.ZNorm
