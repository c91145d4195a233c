import Verif.Py.Basic
import Verif.Py.DictLemmas
import Verif.Model.Constraints
import Verif.Spec.Closure
import Verif.Spec.Manager
import Verif.Proofs.Closure
import Verif.Proofs.Trans
import Verif.Proofs.Manager
import Verif.Proofs.Queries
import Verif.Proofs.Calls
import Verif.Props.Manager
import Verif.Model.Bounds
import Verif.Spec.Bounds
import Verif.Proofs.Coloring
import Verif.Proofs.Bounds
import Verif.Props.Bounds
import Verif.Model.Serialize
import Verif.Proofs.Serialize
import Verif.Props.Serialize
import Verif.Model.Json
import Verif.Spec.Json
import Verif.Proofs.Json
import Verif.Proofs.JsonValue
import Verif.Props.Json
import Verif.Model.Sampling
import Verif.Spec.Sampling
import Verif.Proofs.Sampling
import Verif.Proofs.Session
import Verif.Props.Sampling
import Verif.Model.Rename
import Verif.Spec.Labels
import Verif.Proofs.Rename
import Verif.Props.Rename
import Verif.Spec.Clustering
import Verif.Proofs.Clustering
import Verif.Model.KMeans
import Verif.Spec.KMeans
import Verif.Proofs.KMeans
import Verif.Props.KMeans
import Verif.Py.Extremum
import Verif.Model.Hierarchical
import Verif.Spec.Hierarchical
import Verif.Proofs.Hierarchical
import Verif.Proofs.HierLoop
import Verif.Proofs.HierTree
import Verif.Proofs.HierCut
import Verif.Props.Hierarchical
import Verif.Model.DBScan
import Verif.Spec.DBScan
import Verif.Proofs.DBScan
import Verif.Proofs.DBLabels
import Verif.Proofs.DBFinal
import Verif.Props.DBScan
import Verif.Model.Matrix
import Verif.Model.Spectral
import Verif.Proofs.Matrix
import Verif.Proofs.Spectral
import Verif.Props.Spectral
import Verif.Model.Affinity
import Verif.Spec.Affinity
import Verif.Proofs.ApLabels
import Verif.Proofs.ApRun
import Verif.Proofs.Affinity
import Verif.Props.Affinity
import Verif.Proofs.LabelCount
import Verif.Model.MPC
import Verif.Spec.MPC
import Verif.Proofs.MpcGraph
import Verif.Proofs.MpcPre
import Verif.Proofs.MpcAssign
import Verif.Proofs.MpcRun
import Verif.Proofs.MpcCluster
import Verif.Props.MPC
import Verif.Model.Frequency
import Verif.Spec.Frequency
import Verif.Props.Frequency
import Verif.Model.Factory
import Verif.Spec.Factory
import Verif.Props.Factory
import Verif.Model.Text
import Verif.Spec.Text
import Verif.Props.Text
import Verif.Model.Objects
import Verif.Spec.Reuse
import Verif.Proofs.Objects
import Verif.Proofs.ObjectsRun
import Verif.Props.Reuse
import Verif.Spec.Loop
import Verif.Spec.Cost
import Verif.Props.EndToEnd
import Verif.Props.Cost
import Verif.Spec.Usage
import Verif.Props.Usage
import Verif.Model.Heap
import Verif.Spec.Heap
import Verif.Proofs.Heap
import Verif.Proofs.HeapManager
import Verif.Props.Heap
import Verif.Proofs.HierHeights
import Verif.Props.HierHeights
import Verif.Spec.Inertia
import Verif.Proofs.Inertia
import Verif.Props.Inertia
import Verif.Model.Messages
import Verif.Spec.Messages
import Verif.Proofs.Messages
import Verif.Proofs.MessagesSmall
import Verif.Proofs.MessagesExact
import Verif.Props.Messages
import Verif.Model.MPCExact
import Verif.Spec.MPCExact
import Verif.Proofs.MpcExact
import Verif.Proofs.MpcScore
import Verif.Proofs.MpcFill
import Verif.Proofs.MpcDescent
import Verif.Proofs.MpcHeavy
import Verif.Proofs.MpcLogDet
import Verif.Props.MPCExact
import Verif.Model.HierExport
import Verif.Spec.HierExport
import Verif.Proofs.HierExport
import Verif.Proofs.HierDeep
import Verif.Props.HierExport
import Verif.Spec.DBConnect
import Verif.Proofs.DBConnect
import Verif.Props.DBConnect
import Verif.Proofs.DBOrder
import Verif.Props.DBOrder
import Verif.Spec.Vectors
import Verif.Proofs.Vectors
import Verif.Props.Vectors
import Verif.Spec.Names
import Verif.Proofs.Names
import Verif.Proofs.NamesExact
import Verif.Proofs.NamesCluster
import Verif.Proofs.NamesOthers
import Verif.Proofs.NamesDB
import Verif.Props.Names
import Verif.Spec.SpectralExact
import Verif.Proofs.SpectralExact
import Verif.Proofs.SpectralBlocks
import Verif.Props.SpectralExact
import Verif.Proofs.CannotLinks
import Verif.Proofs.KMeansCount
import Verif.Props.KMeansCount
import Verif.Spec.Inferred
import Verif.Proofs.InferredHier
import Verif.Proofs.Inferred
import Verif.Props.Inferred
import Verif.Spec.Geometry
import Verif.Proofs.Geometry
import Verif.Proofs.GeometryHier
import Verif.Proofs.GeometryKMeans
import Verif.Proofs.GeometryReal
import Verif.Props.Geometry
import Verif.Spec.Questions
import Verif.Proofs.Questions
import Verif.Props.Questions
import Verif.Spec.Repair
import Verif.Props.Repair
import Verif.Spec.Order
import Verif.Proofs.OrderHier
import Verif.Props.Order
import Verif.Props.Cuts
import Verif.Props.Centroids
import Verif.Model.Random
import Verif.Spec.Random
import Verif.Proofs.Random
import Verif.Props.Random
import Verif.Py.Float
import Verif.Spec.Float
import Verif.Proofs.Float
import Verif.Props.FrequencyFloat
import Verif.Model.File
import Verif.Spec.File
import Verif.Props.File
import Verif.Model.FloatVec
import Verif.Proofs.FloatSqrt
import Verif.Props.FloatDist
import Verif.Spec.Document
import Verif.Props.Document
import Verif.Model.Twister
import Verif.Proofs.Twister
import Verif.Props.Twister
import Verif.Model.Tfidf
import Verif.Spec.Tfidf
import Verif.Proofs.Tfidf
import Verif.Props.Tfidf
import Verif.Spec.DBKeep
import Verif.Proofs.DBKeep
import Verif.Props.DBKeep
import Verif.Spec.HierSeparated
import Verif.Proofs.HierSeparated
import Verif.Props.HierSeparated
import Verif.Spec.KMSeparated
import Verif.Proofs.KMSeparated
import Verif.Props.KMSeparated
import Verif.Model.DbHeap
import Verif.Spec.DbHeap
import Verif.Proofs.DbHeap
import Verif.Props.DbHeap
import Verif.Spec.HierChained
import Verif.Proofs.HierChained
import Verif.Props.HierChained
import Verif.Spec.Mistakes
import Verif.Proofs.Mistakes
import Verif.Props.Mistakes
import Verif.Model.HierHeap
import Verif.Spec.HierHeap
import Verif.Proofs.HierHeap
import Verif.Props.HierHeap
import Verif.Spec.DBSeparated
import Verif.Proofs.DBSeparated
import Verif.Props.DBSeparated
import Verif.Spec.Margin
import Verif.Proofs.Margin
import Verif.Props.Margin
import Verif.Model.MpcNames
import Verif.Spec.MpcNames
import Verif.Props.MpcNames
import Verif.Spec.Check
import Verif.Proofs.Check
import Verif.Props.Check
import Verif.Spec.LoopTrace
import Verif.Props.LoopTrace
import Verif.Spec.Twister
import Verif.Proofs.TwisterRec
import Verif.Props.TwisterRec
import Verif.Spec.Correct
import Verif.Props.Correct
import Verif.Spec.MpcSeparated
import Verif.Proofs.MpcSeparated
import Verif.Proofs.MpcFarthest
import Verif.Props.MpcSeparated
import Verif.Spec.MpcMove
import Verif.Proofs.MpcMove
import Verif.Props.MpcMove
import Verif.Model.NumpyRandom
import Verif.Spec.NumpyRandom
import Verif.Proofs.NumpyRandom
import Verif.Props.NumpyRandom
import Verif.Props.MpcCycle
import Verif.Model.FloatKm
import Verif.Spec.KmMargin
import Verif.Proofs.KmMargin
import Verif.Props.KmMargin
import Verif.Model.FloatDot
import Verif.Spec.FloatDot
import Verif.Proofs.FloatDot
import Verif.Props.FloatDot
import Verif.Model.FloatLink
import Verif.Spec.FloatLink
import Verif.Props.FloatLink
import Verif.Model.FloatTfidf
import Verif.Spec.FloatTfidf
import Verif.Props.FloatTfidf
import Verif.Model.Ieee
import Verif.Spec.Ieee
import Verif.Props.Ieee
import Verif.Model.IeeeLink
import Verif.Spec.IeeeLink
import Verif.Props.IeeeLink
import Verif.Spec.MpcMargin
import Verif.Proofs.MpcMargin
import Verif.Props.MpcMargin
import Verif.Spec.ApMargin
import Verif.Proofs.ApMargin
import Verif.Props.ApMargin
import Verif.Model.FloatAp
import Verif.Proofs.FloatAp
import Verif.Props.FloatAp
import Verif.Props.FloatApRun
import Verif.Tests.Prelude
import Verif.Tests.Constraints
import Verif.Tests.Sampling
import Verif.Tests.Hierarchical
import Verif.Tests.KMeans
import Verif.Tests.DBScan
import Verif.Tests.Affinity
import Verif.Tests.MPC
import Verif.Tests.Others
import Verif.Tests.Text
