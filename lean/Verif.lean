import Verif.AutoEncoder
import Verif.AutoProofs
import Verif.AutoReplay
import Verif.BatchLemmas
import Verif.BuildFacts
import Verif.BuildLemmas
import Verif.BuildMain
import Verif.BuildSpec
import Verif.Checkpoints
import Verif.CloudFiles
import Verif.Completion
import Verif.Configs
import Verif.Conv
import Verif.ConvLemmas
import Verif.ConvMain
import Verif.ConvSetup
import Verif.CubeLemmas
import Verif.CubeSym
import Verif.DTypes
import Verif.DataTools
import Verif.Dataset
import Verif.DecodeBatch
import Verif.DecodeLemmas
import Verif.Decoder
import Verif.DeepLemmas
import Verif.Devices
import Verif.ElasticLemmas
import Verif.FileLists
import Verif.Float32
import Verif.FloatAvg
import Verif.FloatConv
import Verif.FloatDrop
import Verif.FloatInterp
import Verif.FloatLeafLemmas
import Verif.FloatLeaves
import Verif.FloatLinear
import Verif.FloatNormalize
import Verif.FloatPool
import Verif.FloatSizes
import Verif.FullLemmas
import Verif.GrowLemmas
import Verif.HalfShapes
import Verif.Heap
import Verif.HeapMerge
import Verif.HeapProofs
import Verif.HeapRep
import Verif.Image2Shape
import Verif.Int32
import Verif.Interp
import Verif.InterpLemmas
import Verif.KernelLists
import Verif.KeyCache
import Verif.KeyLemmas
import Verif.KeyMain
import Verif.Kitti
import Verif.Layers
import Verif.LevelDecoder
import Verif.ListLemmas
import Verif.Losses
import Verif.MergeLemmas
import Verif.MeshTools
import Verif.Metrics
import Verif.MortonLemmas
import Verif.NetBatch
import Verif.NetBatchLayers
import Verif.NetLayers
import Verif.NetLemmas
import Verif.NetLocal
import Verif.NetLocalSegNet
import Verif.NetLocalUNet
import Verif.NetMemory
import Verif.NetMemoryLemmas
import Verif.NetMemoryNets
import Verif.NetMoved
import Verif.NetProofs
import Verif.NetProofs2
import Verif.NetRel
import Verif.NetShape
import Verif.NetSys
import Verif.NetTurned
import Verif.Networks
import Verif.Nn
import Verif.NnSpec
import Verif.OUNet
import Verif.OUNetProofs
import Verif.Octree
import Verif.OctreeIO
import Verif.OctreeSpec
import Verif.PerSampleLemmas
import Verif.PipelineLemmas
import Verif.Pipelines
import Verif.PointOrder
import Verif.PointTypes
import Verif.Points
import Verif.PointsHeap
import Verif.PointsHeapProofs
import Verif.PoolLemmas
import Verif.Projects
import Verif.PropsAffine
import Verif.PropsAlign
import Verif.PropsBall
import Verif.PropsBatch
import Verif.PropsBlocks
import Verif.PropsBuild
import Verif.PropsCheckpoints
import Verif.PropsCloudFiles
import Verif.PropsCompletion
import Verif.PropsConfigs
import Verif.PropsConv
import Verif.PropsConvVariants
import Verif.PropsCounts
import Verif.PropsDTypes
import Verif.PropsDataTools
import Verif.PropsDataset
import Verif.PropsDecodeBatch
import Verif.PropsDense
import Verif.PropsDevices
import Verif.PropsDrop
import Verif.PropsFileLists
import Verif.PropsFlip
import Verif.PropsFloat
import Verif.PropsFloatAvg
import Verif.PropsFloatClip
import Verif.PropsFloatConv
import Verif.PropsFloatDrop
import Verif.PropsFloatLeaves
import Verif.PropsFloatLinear
import Verif.PropsFloatNormalize
import Verif.PropsFloatPool
import Verif.PropsFloatSizes
import Verif.PropsFold
import Verif.PropsHalfShapes
import Verif.PropsHeap
import Verif.PropsHeights
import Verif.PropsIO
import Verif.PropsImage2Shape
import Verif.PropsInt32
import Verif.PropsInterp
import Verif.PropsInterpLayers
import Verif.PropsInterpPoints
import Verif.PropsKernelLists
import Verif.PropsKernels
import Verif.PropsKey
import Verif.PropsKeyCache
import Verif.PropsKitti
import Verif.PropsLeafContent
import Verif.PropsLinear
import Verif.PropsLocal
import Verif.PropsLocalSegNet
import Verif.PropsLosses
import Verif.PropsMerge
import Verif.PropsMesh
import Verif.PropsMetrics
import Verif.PropsMirror
import Verif.PropsMixed
import Verif.PropsNeighAgain
import Verif.PropsNetMemory
import Verif.PropsNets
import Verif.PropsNorm
import Verif.PropsNormAffine
import Verif.PropsNormStats
import Verif.PropsNormalize
import Verif.PropsOUNet
import Verif.PropsOrder
import Verif.PropsOutside
import Verif.PropsPerSample
import Verif.PropsPipelines
import Verif.PropsPointTypes
import Verif.PropsPoints
import Verif.PropsPointsHeap
import Verif.PropsPointwise
import Verif.PropsPool
import Verif.PropsPoolAvg
import Verif.PropsPoolLevels
import Verif.PropsProjects
import Verif.PropsQuery
import Verif.PropsReceptive
import Verif.PropsReplay
import Verif.PropsResolution
import Verif.PropsRunningStats
import Verif.PropsSaving
import Verif.PropsScanNet
import Verif.PropsScanScripts
import Verif.PropsScanTools
import Verif.PropsShapeScript
import Verif.PropsShuffle
import Verif.PropsSolver
import Verif.PropsSplit
import Verif.PropsSymmetry
import Verif.PropsTensors
import Verif.PropsTrain
import Verif.PropsTrainBn
import Verif.PropsTransforms
import Verif.PropsTranslate
import Verif.PropsTranslateTrain
import Verif.PropsTurned
import Verif.PropsTurnedAuto
import Verif.PropsUnion
import Verif.PropsUpPool
import Verif.PropsUpsample
import Verif.PropsUtils
import Verif.PropsVoting
import Verif.PropsVoxel
import Verif.PropsZoom
import Verif.QueryLemmas
import Verif.RunningStats
import Verif.RunningStatsLemmas
import Verif.SampleOrder
import Verif.Saving
import Verif.ScanNet
import Verif.ScanScripts
import Verif.ScanTools
import Verif.ShapeScript
import Verif.ShuffledKey
import Verif.Solver
import Verif.SortLemmas
import Verif.Spec
import Verif.Tensors
import Verif.Torch
import Verif.TransformLemmas
import Verif.TurnedGen
import Verif.TurnedQueries
import Verif.Utils
import Verif.Valid
import Verif.Voting
