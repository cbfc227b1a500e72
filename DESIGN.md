# Formal model of ocnn-pytorch

## What is modelled, in general

* Language: Lean 4.33.0, Mathlib imported module by module.  All modules are in `lean/Verif`.
* Tensors are lists of rows.  Element-wise code is modelled by the scalar function; a row is an
  element of an arbitrary type, module or `Fin C → R`, depending on what the code does with it.  In the
  models of the networks a tensor carries its number of channels, so that channel mismatches are errors.
* Exceptions are values: `M α = Except Err α`.  Asserts, index errors, shape errors, use of `None`,
  unknown dictionary keys, unknown attributes and division by zero are modelled.  Torch's negative indexing
  is modelled.
* int64 keys: `shuffled_key.py` is modelled bit by bit on `BitVec 64` (table look-ups included).
  The octree level uses `Nat` keys obtained from the 64-bit result; values with the sign bit set are
  mapped to the pseudo error `Err.domain`, so no theorem can use them silently.
* Floating point: exact arithmetic.  Coordinates are rationals, `.long()` is truncation towards zero.  C97 models the rounding of float32 for the coordinates of `build_octree`, and C151 bounds the rounding errors of convolutions (any order of summation, relative error per operation, underflow, no overflow).
  Feature arithmetic is over an arbitrary commutative ring / ordered field.  Rounding, NaN and
  infinities are not modelled, with the exception of `-inf` in max pooling (bottom element).
  `cos`, `sin`, `sqrt`, `tanh` and the normalization of normals are parameters, with the laws that a theorem needs
  as hypotheses.
* int32 counters and child indices are unbounded integers in `Octree` and `Decoder`; `Int32` models the same functions with 32-bit wrap-around, and C150 proves them equal for fewer than 2^31 nodes per layer.
* Devices: a tag on `Points`/`Octree` only where the code branches on it.
* Random numbers (augmentation, dropout, drop path) are arguments of the model.
* In-place updates: functions return the new values of the caller's tensors where the code overwrites them
  (`flip`, `OctreeInterp.forward`, `resize_with_last_val`, ...).  For C25 there is a second model of the queries over an
  explicit heap of tensors with views (`Heap`).

## Modules

Models (every definition cites the lines it models):

| module | models |
|---|---|
| `Torch` | list versions of the torch/Python primitives used |
| `ShuffledKey` | `ocnn/octree/shuffled_key.py` |
| `Utils` | `ocnn/utils.py` |
| `Points` | `ocnn/octree/points.py` |
| `Octree`, `OctreeIO`, `Decoder` | `ocnn/octree/octree.py`; the loop of split and grow of the decoders |
| `Heap` | `get_neigh`, `key`, `search_key`, `merge_octrees` on a heap of tensors with views and in-place writes |
| `PointsHeap` | the methods of `Points`, `Transform.transform` and the `preprocess` methods on a heap of coordinate and normal tensors shared with the dataset |
| `Nn` | `octree_pad`, `octree2col`, `octree2vox`, `octree_align`, `octree_pool`, `octree_norm`, `octree_drop` of `ocnn/nn` |
| `Conv` | `octree_conv.py`, `octree_dwconv.py`, `octree_gconv.py`: setup, the three loops, autograd functions, modules |
| `Interp` | `octree_interp.py` |
| `Dataset` | `ocnn/dataset.py` |
| `NetLayers` | `ocnn/modules/modules.py`, `resblocks.py`, and the used layers of `torch.nn` |
| `Networks` | `lenet.py`, `resnet.py`, `segnet.py`, `unet.py`, `hrnet.py` |
| `AutoEncoder` | `autoencoder.py`, and the constructor of `ounet.py` |
| `Solver` | `projects/autoencoder.py`: losses, evaluation |
| `Image2Shape` | `ocnn/models/image2shape.py`, `projects/image2shape.py`: losses, evaluation |
| `Pipelines` | `projects/segmentation.py` (process_batch, model_forward, get_model), `projects/classification.py` (get_model, forward): from the clouds of a batch to the logits |
| `Metrics` | `projects/segmentation.py` (test_step, result_callback) |
| `Float32` | `ocnn/octree/octree.py` (build_octree with float32 coordinates) |
| `Kitti` | projects/datascts/semantic_kitti.py: label map, preprocessing, the name of the label file |
| `Completion` | projects/datascts/completion.py: `Transform.__call__` |
| `ScanNet` | projects/datascts/scannet.py: `color_distort`, `elastic_distort`, `ScanNetTransform.__call__` |
| `MeshTools` | projects/tools/seg_scannet.py: `face_normal`, `vertex_normal`, `align_to_axis` |
| `ScanTools`, `CloudFiles` | projects/tools/seg_scannet.py: `generate_point_labels200`, `calc_iou`, `save_ply`, `save_npz`, `process_scannet` (one scene); projects/tools/utils.py; projects/datascts/utils.py: the readers |
| `FileLists` | projects/tools: seg_shapenet.py `txt_to_ply`, `generate_filelist`; cls_modelnet.py `get_filelist`; seg_kitti.py `generate_file_list`; image2shape.py `create_filelist` |
| `Tensors`, `Saving` | ocnn/utils.py: `broadcast`, `scatter_add` (any rank), `xavier_uniform_`, `build_example_octree`; ocnn/octree/points.py: `save` |
| `Checkpoints` | projects/tools: upgrade_ckpt.py, cleanup_ckpt.py (one folder), parse_ckpt.py |
| `DataTools` | projects/tools/cls_modelnet.py: header cleaning, normalisation and conversion of meshes; projects/tools/ae_shapenet.py: conversion and file lists; readers of projects/datascts/modelnet40.py, completion.py, image2shape.py |
| `Losses` | projects/classification.py: cross entropy and accuracy of a batch; softmax of projects/segmentation.py; over the real numbers |
| `Configs` | projects/configs/*.yaml (the values that matter for shapes), commands of projects/scripts/run_seg_shapenet.py |
| `KeyCache` | ocnn/octree/shuffled_key.py: the tables per device; ocnn/modules/modules.py: `ckpt_conv_wrapper` |
| `Voting` | `projects/segmentation.py` (`eval_step` with saving), `projects/tools/seg_scannet.py` (`generate_output_seg`, `calc_iou` on folders), `projects/scripts/run_seg_scannet.py` (`test`, `validate`) |
| `Int32` | `ocnn/octree/octree.py` (building, growing, splitting, neighbour tables, merging) and the growing loop of `ocnn/models/autoencoder.py`, with int32 arithmetic |
| `FloatConv` | `ocnn/nn/octree_conv.py` as formal sums of products, with the results a floating-point unit may return for them |
| `KernelLists` | the list objects of kernel sizes in `ocnn/utils.py`, `ocnn/nn/octree_conv.py` and `ocnn/nn/octree_dwconv.py` |
| `CubeSym`, `NetTurned`, `TurnedQueries`, `TurnedGen` | no code: symmetries of the cube, what they do to cells, octants and kernel offsets, and that every layer with turned kernels commutes with turning |
| `OUNet` | ocnn/models/ounet.py: `OUNet.encoder`, `decoder`, `init_octree`, `forward` |
| `FloatLeaves` | octree.py 160-170, 217-224: which numbers the averages of a leaf combine in single precision, in any order of summation |
| `FloatInterp` | octree_interp.py 117-126 in single precision |
| `FloatPool` | octree_pool.py 115-122, octree_norm.py 44-46: sums and counts with `p` significant bits in any order of summation; every single addition rounds (an implementation that accumulates in a wider type than the features has the `p` of that type) |
| `FloatNormalize` | points.py 158-170, 210-222 in single precision; division of a number by a tensor is, as in torch, multiplication with the reciprocal |
| `NetMemory` | the forward passes of octree_conv.py 361-429, modules.py, resblocks.py, lenet.py, resnet.py, segnet.py, unet.py, hrnet.py, autoencoder.py on references: which operation returns new memory, its argument, or overwrites it |
| `RunningStats` | residual blocks with the running statistics of batch normalization and checkpoints; it is assumed that the backward pass reaches every block, that the recomputation runs the whole block once, and that momentum is the default 0.1 |
| `ScanScripts` | projects/scripts/run_seg_scannet.py: which files the commands read and write; configurations seg_scannet*.yaml (paths) |
| `NetLocal`, `NetLocalUNet` | lemmas: layers and U-Net on two octrees that agree in a region |
| `HalfShapes` | the ShapeNet tool of image2shape: sampling of meshes, archives in half precision |
| `FloatLinear` | linear interpolation in single precision: octree_interp.py 50-99 with rounded coordinates and weights, summands in place of sums |
| `DTypes` | the element types of feature tensors through the operations of ocnn/nn and through autocast |
| `PointTypes` | the element types of point clouds through augmentation, octree construction and input features |
| `FloatSizes` | `merge_points` with sizes and batch indices that go through float32 |
| `Devices` | the devices of the tensors of an octree: octree.py 41-96, 147-254, 311-353, 508-641 |
| `FloatAvg` | average pooling in single precision: octree_pool.py 68-103 |
| `FloatDrop` | drop path in floating point: octree_drop.py 33-51 |
| `ShapeScript` | projects/scripts/run_seg_shapenet.py: commands, logs, schedule and summary |
| `NetLocalSegNet` | SegNet on two octrees that agree in a region |
| `Projects` | `projects/segmentation.py` (metrics, aggregation), `projects/tools/seg_scannet.py` (chunks, labels) |

Specifications, independent of the models: `Spec` (Morton code, cells), `OctreeSpec` (well-formed octrees, neighbour tables),
`BuildSpec`, `NnSpec` (fields, kernels), and the definitions in a `namespace Spec` at the head of the `Props*` files.
`Valid` proves that the elementary notion `Octree.Valid` is equivalent to the representation used in the proofs.

Helper lemmas: `ListLemmas`, `SortLemmas`, `MortonLemmas`, `KeyLemmas`, `KeyMain`, `Layers`, `FullLemmas`, `GrowLemmas`,
`DeepLemmas`, `DecodeLemmas`, `QueryLemmas`, `BuildLemmas`, `BuildMain`, `BuildFacts`, `CubeLemmas`, `MergeLemmas`,
`ConvLemmas`, `ConvSetup`, `ConvMain`, `PoolLemmas`, `InterpLemmas`, `BatchLemmas`, `PerSampleLemmas`, `NetRel`, `NetSys`, `NetBatchLayers`, `NetMoved`, `NetLemmas`,
`NetProofs`, `NetProofs2`, `NetShape`, `NetBatch`, `AutoProofs`, `PipelineLemmas`, `PointOrder`, `TransformLemmas`, `ElasticLemmas`.

Property theorems (`Props*`), each with an `example` showing that its hypotheses are satisfiable:
`PropsKey` C01-C06, `PropsBuild` C07-C14, C28, C29, `PropsSplit` C10, C18-C21, `PropsQuery` C22-C24, C26-C28,
`PropsHeap` C25, `PropsMerge`, `PropsBatch` C15-C17, `PropsConv` C30-C38, C41, C84, `PropsConvVariants` C39, C40,
`PropsPool`, `PropsPoolAvg` C42-C47, `PropsVoxel` C48, C49, C57, `PropsAlign` C49, `PropsInterp`, `PropsLinear` C50-C55, `PropsNorm` C56,
`PropsPerSample` C58, `PropsPoints` C59-C67, C69, `PropsIO` C68, C70, C73, `PropsDataset` C71, C72, `PropsUtils` C74-C76,
`PropsNets` C77-C79, C86, `PropsReplay` C87, `PropsPointsHeap` C88, `PropsSolver` C89, C90, `PropsDecodeBatch` C91, `PropsImage2Shape` C92, `PropsSymmetry` C93, `PropsTranslate` and `PropsTranslateTrain` C94, `PropsPipelines` C95, `PropsMetrics` C96, `PropsFloat` C97, `PropsOrder` C98, `PropsKitti` C99-C100, `PropsCompletion` C101, `PropsScanNet` C102-C104, `PropsMesh` C105, `PropsScanTools` C106-C107, `PropsCloudFiles` C108-C109, `PropsFileLists` C110-C114, `PropsDense` C115-C116, `PropsAffine` C117, `PropsReceptive` C118, `PropsResolution` C119, `PropsTensors` C120-C121, `PropsSaving` C122-C123, `PropsCheckpoints` C124-C127, `PropsInterpPoints` C128, `PropsFlip` C129, `PropsPoolLevels` C130, `PropsNormStats` C131, `PropsBall` C132, `PropsDataTools` C133-C136, `PropsDrop` C137, `PropsBlocks` C138, `PropsZoom` C139, `PropsLosses` C140-C141, `PropsCounts` C142, `PropsTrain` C143, `PropsConfigs` C144, `PropsKeyCache` C145-C147, `PropsShuffle` C148, `PropsVoting` C149, `PropsInt32` C150, `PropsFloatConv` C151, `PropsKernelLists` C152, `PropsTransforms` C153 and C154, `PropsTurned` C155, `PropsTurnedAuto` C155 (generating networks) and C157, `PropsOUNet` C158, `PropsOutside` C159, `PropsNormalize` C160, `PropsFloatLeaves` C161, `PropsInterpLayers` C162, `PropsFloatPool` C163, `PropsFloatNormalize` C164, `PropsFloatClip` C165, `PropsNetMemory` C166, `PropsRunningStats` C167, `PropsScanScripts` C168, `PropsLocal` C169, `PropsUnion` C170, `PropsHalfShapes` C171, `PropsLeafContent` C172, `PropsHeights` C173, `PropsFloatLinear` C174, `PropsDTypes` C175, `PropsMixed` C176, `PropsPointTypes` C177, `PropsFloatSizes` C178, `PropsDevices` C179, `PropsFloatAvg` C180, `PropsFloatDrop` C181, `PropsUpPool` C182, `PropsNormAffine` C183, `PropsNeighAgain` C184, `PropsShapeScript` C185, `PropsKernels` C186, `PropsLocalSegNet` C187, `PropsMirror` C188, `PropsFold` C189, `PropsTrainBn` C190, `PropsPointwise` C191, `PropsUpsample` C156, `PropsProjects` C80-C83, C85.

## Each property

| id | model | proof |
|---|---|---|
| C01-C03 | `xyz2key64`, `key2xyz64` with the tables as lists | bit extensionality: every bit of the result is the bit the Morton recursion prescribes; no enumeration |
| C04, C05 | Morton recursion | arithmetic, induction over levels |
| C06 | same | concrete witnesses, generic in the depth / cell |
| C07-C10 | `build`, `growFull` | loop invariant over the levels: sorted node keys, `children = numbering of the occupancy mask` |
| C11, C12 | `build` signal part | scatter sums = filtered sums; convexity of the half-open cell |
| C13 | `build` | output characterised by the set / multiset of keys |
| C14 | `build` | counterexample (coordinate exactly 1) and the positive statement on [-1,1) |
| C15, C16 | `Octree.merge`, `Octree.build` | block decomposition of sorted layers |
| C17 | `Octree.merge` | counterexample; positive part for single-sample octrees |
| C18 | `split` | prefix sums = ranks |
| C19, C20 | `split`/`grow` folded over a list of predictions | invariant by induction over the history |
| C21, C22 | `constructNeigh` | induction over depth; base: dense layers; step: parent/child look-up tables |
| C23, C24 | `getNeigh` | finite tables evaluated by the kernel (complete domain), gather lemma |
| C25 | heap model | frame property: every write of a query goes to storage allocated by the query |
| C26, C27 | `searchKey`, `xyzb` | counting lemma for sorted lists, C01/C02 |
| C28, C29 | `constructAllNeigh`, `build` on a used object | counterexamples; positive parts for full_depth ≥ 1, resp. the fields that are overwritten |
| C30, C31 | `pad`, `depad` | mask/fill lemmas; C31 counterexample |
| C32, C33 | `octree2col`, `col2octree` | gather/scatter adjunction |
| C34-C38, C84 | conv base class: `setup`, three gemms, autograd functions, modules | row-wise characterisation, chunk partition lemma, adjunction by induction over the scatter list |
| C39, C40 | dwconv, gconv | specialisation of C34-C37 |
| C41 | conv modules | heights computed from the octree invariant |
| C42-C47 | pooling | row-wise characterisations; counterexamples for C44/C45 |
| C48-C55 | voxel, align, interpolation | search correctness (C26) plus arithmetic; counterexamples C54/C55 |
| C56, C57 | norm, drop path | per-sample characterisation |
| C58 | merged octree | neighbour table of the merged octree = shifted tables (from C21) |
| C59-C69 | `Points`, `OctreeIO` | direct |
| C70-C72 | `to`, `Transform`, `CollateBatch` | direct, using C07 and C16 |
| C73 | `getInputFeature` | from C11/C12 |
| C74-C76 | utils | induction |
| C77, C86 | `lenet`, ..., `autoEncoder` with all layers and parameters | one relational argument by induction over the stages: a run on a batch and a run on a sample stay related (`NetSys`); instantiated with a batch (C86) and with an octree and itself (C77) |
| C78, C79 | `segnet`, `resBlock2`, `ounetInit` | counterexamples and the part that holds |
| C80-C83, C85 | projects | induction over epochs / chunks; complete evaluation of the label tables; counterexamples C82/C83 |
| C87 | `aeDecoder`, `aeDecodeCode`, `autoEncoder` | the layers read only the tables of the layers they work on (`AutoReplay`); induction over the depths with both loops side by side, the generated masks being those of the ground truth |
| C88 | `PHeap`, `HPoints`, `Transform.transformH`, `Preprocess.run`, `prepareH` | simulation of the functional model `Transform.transform` by the heap model with a set of storages that may change (`PointsHeapProofs`); induction over the epochs; concrete witness for the negation |
| C89 | `octree2pts`, `aeEval` | rows sorted by sample (`split_sorted`); C27 for coordinates and samples; C77 for the run of the network; Cauchy inequality for the tangent plane |
| C90 | `computeLoss`, `aeForward` | C77 for the shapes, counting for accuracies, sums of squares for the regression; with C73 (signal), C07 (leaves) and C87 (replay) the reconstruction |
| C91 | `aeDecodeCode`, `Octree.merge` | the merge of the generated octrees is replayed: C86 for the teacher-forced run on the merge, whose predictions are those of the samples (C87), then C87 in the other direction; counterexample: a decoder that never splits |
| C92 | `image2shape`, `i2sForward`, `i2sEval` | the decoder lemmas are stated for all channel lists; C87, C90 for training against evaluation |
| C93 | `ConvModule.forward`, `Octree.build` | on fields C34 gives a formula that only mentions cells; a motion permutes its terms; the occupied cells of a translated cloud are the translated cells (C07) |
| C94 | the networks of `Nets`, `Octree.build`, `Octree.inputFeature` | the relational argument of C86 for the relation "moved by whole cells" (`NetMoved`): every layer, the pooling over samples and the interpolation respect it; then C07, C28, C73, C93 for the octrees and features of a translated cloud; in training mode the statistics of a batch are symmetric functions of its rows |
| C95 | `points2octree`, `batchOctree`, `processBatch`, `inputTensor`, `queryPoints`, `segModel`, `segForward`, `segStep`, `clsModel`, `clsStep` | C07 for one cloud, C15-C17 for the merged octree, C58 for the input features, C86 for the network, C63 for the merged clouds; the row sets of batch and samples are then compared block by block |
| C96 | `testMetrics`, `testStep`, `trackerAverage`, `resultCallback`, `testEpoch` | C95 for the logits and labels of a batch, additivity of the counts over concatenations, then the fold of `result_callback` over the averages |
| C97 | `rne`, `ulp`, `f32`, `scaleF32`, `buildF32` | `f32` is validated against its specification (a nearest number with 24 significant bits, `f32_nearest`, `f32_isF32`); multiplication by a power of two is exact, so building in float32 is building from moved points (`buildF32_eq`), then C08 and C14 |
| C98 | `clsStep`, `segStep` | the octrees agree by C13; the relational argument of `NetSys` for one octree compared with itself and two orders of the query points (`PointOrder`), whose rows are images of the positions under one function |
| C99 | `kittiLabel`, `kittiPrepare` | the table of 260 entries checked against a list of ids by class, entry by entry (the whole table); the transform for clouds with any attributes (`TransformLemmas`) |
| C100 | `kittiLabelFile`, `kittiReadLabels` | `str.replace` works part by part across a separator that the word does not contain; witness for the violation |
| C101 | `completionCall` | the folds are the bounding box; clipping is a filter; C07 for both octrees |
| C102 | `colorDistort` | the folds are the range of a channel; each step stays in [0, 255] and is monotone; a constant channel is `none` after the contrast and stays so |
| C103 | `elasticStep`, `elasticDistort` | blurring keeps the bound and makes neighbours close; position on the grid by floor and fraction; interpolation is Lipschitz axis by axis (`ElasticLemmas`) |
| C104 | `scanNetCall` | C102 and C103, then the transform for clouds with any attributes (`TransformLemmas`) |
| C105 | `vertexNormal`, `alignToAxis` | invariant of the loop over the faces: each vertex has the sum so far; a right-handed orthonormal matrix keeps inner and cross products |
| C106 | `pointLabels200` | the loop is a fold per vertex; induction from the end of the groups |
| C107 | `calcIou` | the sums after the loop are counts over the concatenation of the files |
| C108 | `savePly`, `saveNpz`, `savePoints`, `readPly`, `readNpz`, `readFile` | column by column; single precision is idempotent and exact on bytes |
| C109 | `processScene` | C85, C105 and C108 composed |
| C110 | `segNum`, `segDis`, `txtToPly`, `readPly` | prefix sums of the table; C108 |
| C111 | `partFilelists` | the id of the category is found in the line only at its own place |
| C112 | `getFilelist` | the place in the sorted list is the number of smaller names |
| C113 | `kittiFilelists` | membership in each list in both directions |
| C114 | `imageFilelists` | the loop is a flatMap; taking and dropping the same number is a partition |
| C115 | `ConvModule.forward`, `octreePad`, `octreeDepad` | padded features are the same field on the grid (C34) |
| C116 | `ConvModule.forward`, `octree2voxel` | voxels are the values of the field (C34, C48) |
| C117 | `octreeLinearPts` | the weights reproduce the point; weighted means stay in the range (C53) |
| C118 | `runStack` of `ConvModule.forward` | induction over the layers (C34) |
| C119 | `Octree.build` | the layers are functions of the occupied cells (C02) |
| C120 | `scatterAddNd`, `broadcast` | induction over the positions of a tensor of any rank |
| C121 | `xavierUniform` | algebra over an ordered field with a square root |
| C122 | `Points.save` | dictionary updates; columns glued row by row |
| C123 | `buildExampleOctree` | C02 for three points, cells by division |
| C124 | `upgradeEntry` | positions in row-major order |
| C125 | `upgradeEntry` | first occurrence of a word without borders; the doubled name is a counterexample |
| C126 | `cleanupRemoved` | the sorted list ends with the two largest names |
| C127 | `listVar` | induction over the variables |
| C128 | `octreeInterp`, `Octree.build` | search of the cell of each point (C08, C27) |
| C129 | `Points.flip`, `Octree.build` | reflected cells by division, order-free sums per leaf |
| C130 | `octreeMaxPool`, `octreeNearestUpsample` | induction over the levels |
| C131 | `octreeGroupNorm` | algebra over an ordered field with a square root |
| C132 | `meshNormalize`, `alignY` | similarity of balls, algebra |
| C133 | `cleanOff` | case analysis on the first line |
| C134 | `convertMeshes`, `m40ReadFile` | names by suffixes, dictionary of files |
| C135 | `createFilelist`, `convertPly`, `completionReadFile` | names by suffixes, dictionary of files |
| C136 | `renderingFile`, `readPoints` | digits, injectivity of joins |
| C137 | `dropPath` | sum over all draws, a uniform draw per sample (C57) |
| C138 | `ConvModule.forward`, `ConvModule.deconvForward` | the neighbours of a first child are its siblings (C34, C36) |
| C139 | `Octree.build` | cells of shrunk points; order of keys kept; sums per leaf |
| C140 | `clsMetrics`, `crossEntropyLoss` | a wrong class has at most half of the probability |
| C141 | `softmaxRow`, `evalRun` | probabilities add up to 1, sums over the batches (C80) |
| C142 | `Octree.build` | distinct occupied cells are cells of points |
| C143 | `clsStep`, `segStep` | layers of a merged octree are not single rows (C77, C95) |
| C144 | `ShippedConfig`, `runSegShapenet` | C143 for each configuration |
| C145 | `keyRun` | invariant: the dictionaries hold copies of the tables; C01, C03 |
| C146 | `xyz2keyOn` | C145; the call with an integer raises |
| C147 | `ckptConvWrapper`, `pyBind` | binding of arguments |
| C148 | `clsStep`, `segStep` | relation of the layers of the two merged octrees: rows permuted; statistics of a batch are symmetric functions of the rows |
| C149 | `evalAll`, `outputSeg`, `calcIouFolder`, `scanTest`, `scanValidate` | the files saved in the last epoch hold the sums of all epochs (invariant of the loop); composed with C80, C83 and C107; the loop over epochs is that of the external solver |
| C150 | `build32`, `merge32`, `decodeCode32`, `constructAllNeigh32`, `initOctree32` (the same functions with wrap-around and range errors of int32 tensors) | refinement: every intermediate int32 value is bounded by a node count of the final octree, which later steps do not change |
| C151 | `Term`, `Rounded`, `termKernel`, `termKernelT`, `termKernelW`, `ConvModule.terms` (the model of `Conv` run on formal sums of products) | induction on the way of adding up; homomorphisms from formal sums to exact sums, sums of absolute values and counts commute with the convolution |
| C152 | `resizeObject`, `KernelLayer.init`, `KernelLayer.use`, `listStep` (list objects by address) | simulation of the program in which every layer has its own copy; violated by a concrete program |
| C153 | `Points.translate`, `Points.rotate`, `Points.scale` | algebra of the rotation matrices, for scaling homogeneity of the exact square root |
| C154 | `Points.scale`, `Points.flip` | signs by the parity of each letter; violated by a cloud of one point |
| C155 | `Octree.build`, `Octree.inputFeature`, `resnet`, `hrnet`, `unet` | the relational argument for networks with the relation "turned rows", which needs that each layer with turned kernels commutes with turning; occupancy of turned cells axis by axis |
| C156 | `octreeUpsample`, `octreeLinearPts` | reduction to linear interpolation at the centres (C53), then the weights by cases on the octant of the node |
| C157 | `aeDecodeCode`, `autoEncoder` | the turned octree is constructed layer by layer; the run on the generated octree is the generation (C87), the run on the turned octree is its turned run (C155), and its predictions are right again, so it is a generation (C87) |
| C158 | `ouEncoder`, `ouDecoder`, `ouNet`, `levelDecoder` | the relational argument about networks with two octrees in each run (`Layers.ouNet`), `C49_align` for the copied features; the loop of the decoder is treated for an arbitrary body that respects octrees with the same layers (`LevelDecoder`) |
| C159 | `Octree.build` | `build_any` gives the cells as truncation and remainder; both are translated into intervals |
| C160 | `Points.bbox`, `Points.normalize` | the minimum and maximum commute with positive affine maps; closed form of the factor |
| C161 | `SumF32`, `AverageF32`, `Octree.leafTerms` | the scatter-add of the build is run on multisets of summands; sums of numbers in `[m, m+1)` keep a distance of one spacing to the upper end, by induction over the tree of additions; the error is an instance of the analysis of C151; the violation is computed |
| C162 | `octreeInterp`, `octreeNearestF32` | the leaf of a point is known from C08, the nodes above it are non-empty by C07, and C50 says which node a query finds; in single precision both functions see the point moved by the same rounding |
| C163 | `SumP`, `globalPoolTerms`, `PooledP` | the statements of global pooling are run on multisets of summands; integers up to `2^p` are not rounded, so counts are exact by induction over the tree of additions; the error is an instance of the analysis of C151; `2^p + 1` rounds to `2^p`, which gives the violation for every octree of one sample with more than `2^p` nodes |
| C164 | `Points.normalizeF32`, `buildF32` | relative error of each of the seven roundings; the bound for the result composes them; with C97 it gives the leaves; the violations are computed, the first for all cubes of side `2^(k+1)`, `k >= 4`, and all depths |
| C165 | `Points.clipF32`, `buildF32` | the rounded bounds are below `1 - 2^-24`; slices keep attributes aligned (C59); then C97 |
| C166 | `Mem.*R`: all forward passes on references, in-place `ReLU` and `+= bias`, version counters, saved tensors | a simulation relation between programs on references and on values, closed under sequencing, branching and loops; in-place steps only ever follow an operation that returned new, unsaved memory |
| C167 | `stepS`: `OctreeResBlocks` with the buffers of batch normalization as state, forward pass and rerun of the checkpointed blocks | the blocks return what the value model returns; the updates are the list of the inputs of the batch normalizations, whose names are distinct; a second run in reverse order is a permutation of the same updates |
| C168 | `Script.*` | The disk is a dictionary of paths; every command is a function on it. Success of each command from the existence of what it reads (`seg_train`, `seg_eval`, `output_ok`, `iou_ok`), writes are below `logs`; the folder part of a path shows that no choice of the output folder serves `train_all` |
| C169 | `unet`, `Octree.build`, `Points.getItem` | `LocalPair`: two octrees that have the same nodes in a region. Every layer carries a margin within which its rows agree (`RowRel`); a convolution needs one more voxel of its level, a downsampling doubles the voxel, so the margins add up to `unetRadius` (`LocalPair.unet`). The region is given by the points near the query (`nearRegion`), where both octrees have the same nodes and leaf averages (`local_pair`) |
| C170 | `Octree.build` | From the characterisation of the nodes (C07) and of the averages (C11): a cell is occupied by the union iff by one part; sums and counts add up |
| C171 | `mesh2points`, `ply2npz`, `f16`, `readPoints`, `Octree.build` | The files by a lookup lemma for files written per category; the error from the spacing of float16; the nodes from the characterisation of C07 |
| C172 | `Octree.build` | From the closed form of the built octree and C11: equal leaves give equal ancestors, hence equal keys and children; the sums over a reduced cloud have one term |
| C173 | `Conv`, `Nn`, `Interp` | by the height assertions, after `conv_setup` shows what the set-up height is; the violations by monotonicity of gathers in additional rows |
| C174 | `FloatLinear` | for coordinates of at least 1/2 the subtractions are exact, below 1/2 the corner inside has a factor of at least 1/2: all used weights have relative error 2^-20; then the errors of sums (`rounded_error` of C151) and of the quotient, which are relative to the total weight |
| C175 | `DTypes` | cases over the types; the exceptions by evaluation at half and double precision |
| C176 | `DTypes` | the conversions at the start make all operands equal to the type of `out`, which every iteration keeps (induction over the chunks) |
| C177 | `PointTypes` | cases over the types and flags |
| C178 | `FloatSizes` | integers up to 2^24 are float32 numbers; above, the rounded size is an integer that is right exactly if it is a float32 number; 2^24 + 1 is rounded to 2^24 |
| C179 | `Devices` | invariants of the loops over the layers: all layers are on one device; the first layer below the full ones fails exactly if the tables are elsewhere |
| C180 | `FloatAvg` | the weights for 1 to 27 neighbours (the whole table), the error bound of rounded sums of C151 and the table of neighbours of C46 |
| C181 | `FloatDrop` | order properties of rounding at the ends of the binade [1, 2): draws above 1 - keep are kept, draws one spacing below are dropped; then counting |
| C182 | `octreeNearestUpsample`, `octreeMaxPool`, `octreeAvgPool` | from the characterisations C52, C42 and C46; the kernel of size 2 at the first child reaches exactly the eight children |
| C183 | `groupNorm` | closed formula of C56; the mean and the variance of affinely changed rows |
| C184 | `Octree.constructNeigh`, `Octree.constructAllNeigh`, `Octree.toDevice`, `Octree.merge` | one construction is written as a function of the fields it reads (depth, full depth, batch size, children and neighbours of the parent layer); induction over the layers compares two runs from different tables, and a run before and after the copy to a device; the merged tables follow from the exactness of both tables (C21), the block structure of the merged cells (C16) and the uniqueness of a displaced cell |
| C185 | `ShapeScript.trainAll`, `ShapeScript.command`, `ShapeScript.readIou`, `ShapeScript.summary`, `ShapeScript.maxEpoch`, `ShapeScript.take` | the two loops are one fold over the pairs of ratio and category; induction over it keeps what is known of the disk, as the paths of different runs differ (the category has eight characters); the last epoch by evaluation of the whole table |
| C186 | `ConvModule.forward`, `Octree.getNeigh` | from the characterisation C34 for both strides; a sum over a larger set of offsets with zero matrices is unchanged (induction over the offsets) |
| C187 | `segnet`, `maxPoolIdx`, `maxUnpool`, `Octree.build` | the relation of C169 (equal rows inside a region with a margin) through pooling, unpooling and convolutions; induction over the stages |
| C188 | `ConvModule.deconvForward`, `ConvModule.forward`, `octreeNearestUpsample`, `octreeAvgPool` | from C34, C46, C52, C84: the transposed convolution read as a sum over opposite offsets of the field, reindexed by the symmetry of the odd kernels |
| C189 | `convBn`, `deconvBnRelu`, `conv1x1Bn`, `ConvModule.forward` | from C34 and C84: the scaling of output channels commutes with the sum over offsets; both orders of bias and padding compared row by row |
| C190 | `batchNorm`, `ConvModule.forward` | mean and variance of shifted columns; rows from C34 |
| C191 | `conv1x1`, `ConvModule.forward` | from C34: products of matrices commute with the sum over offsets, and with fields |

Properties whose natural statement is false for the code (C14, C17, C28, C29, C31, C36, C44, C45, C54, C55,
C66-C69, C78, C79, C82, C83, C88, C91, C97, C100, C102, C107, C111, C125, C146, C147, C152, C154, C156, C158, C159, C160, C161, C163, C164, C167, C168, C173, C175, C178, C179, C181, C183, C189, C190) are handled by a theorem refuting the statement on a concrete witness (`_violated`) and
a `_partial` theorem for the part that does hold.

## Not modelled

* CUDA (except for the placement of tensors in `Devices`), threads, autograd's graph, memory layout, and dtypes, other than where an overflow of int64 keys is possible and in `DTypes`, which models the types alone.
* Optimisers, weight initialisation apart from `xavier_uniform_`, the update of the running statistics of batch normalization outside `OctreeResBlocks` (C167), state dicts (apart from `upgrade_ckpt.py`), what gradient checkpointing does to memory.
* The input feature that `OUNet.encoder` asks for by a missing method (an argument in the model); the assignment `octree.features[depth] = signal` of `AutoEncoder.decoder` and `OUNet.decoder` (the signal is returned); torchvision's resnet18 in `Image2Shape` (an arbitrary function in the model).
* Strided convolution and pooling at depth 0 (negative depth indices wrap around): the model returns `Err.domain`.
* Broadcasting of one-row or one-channel tensors in `a + b` of the networks (the model raises; C77 shows that it does not occur).
* The bytes of `.npz` and `.ply` files (a file is its named columns), command lines, logging, plotting and the training loops of the external solver package of `projects`.
* `ocnn/octree/points.py`: drawing of random numbers in the augmentation is a parameter.

## Trusted base

* Lean's kernel.
* Axioms: every theorem depends on a subset of `propext`, `Classical.choice`, `Quot.sound` (listed per theorem in `AXIOMS.md`, generated by
  `scripts/gen_axioms.sh`); no own axioms, no `sorry`, no `native_decide`, no `bv_decide`.
* The fidelity of the model, i.e. that each definition mirrors the cited lines, and the semantics given to
  the torch primitives in `Torch` and `NetLayers`.
