C01 proved C01_key_roundtrip C01_key_roundtrip_nobatch
C02 proved C02_decode_encode
C03 proved C03_encode_is_morton C03_table_eq_loop
C04 proved C04_hierarchical
C05 proved C05_batch_major C05_depth_first C05_subtree_contiguous C05_encode_depth_first C05_encode_contiguous
C06 proved C06_batch_limit C06_coordinate_limit C06_depth_limit
C07 proved C07_build
C08 proved C08_leaf_index
C09 proved C09_invariants
C10 proved C10_dense C09_invariants
C11 proved C11_averages
C12 proved C12_inside C12_rebuild
C13 proved C13_order C13_duplicates
C14 partial C14_partial C14_wraps C14_violated
  The property fails for points with a coordinate equal to 1, which wrap to the opposite face (C14_violated, C14_wraps); it is proved for [-1, 1).
C18 proved C18_split C18_split_empty
C19 proved C19_decode C19_decode_prefix C19_decode_logits
C20 proved C20_replay
C21 proved C21_neigh_exact C21_neigh_step
C22 proved C22_symmetric
C23 proved C24_get_neigh_stride1 C23_get_neigh_stride2 C23_bad_stride C23_bad_kernel
C24 proved C24_get_neigh_stride1 C23_get_neigh_stride2
C25 proved C25_get_neigh C25_alias C25_search_key C25_merge C25_history C25_storable
  Second model with a heap of tensors and views (Heap); the results are shown equal to those of the value model.
C26 proved C26_search_key C26_search_xyzb
C27 proved C27_xyzb
C28 partial C28_partial C28_violated C28_full_depth_zero_raises
  The property fails for full_depth = 0 (C28_violated: every legal point cloud); it is proved for full_depth >= 1.
C29 partial C29_partial C29_stale C29_violated
  The property fails: neighbour tables, and normals and features the new point cloud lacks, keep their old contents (C29_stale, C29_violated); it is proved for everything else.
C30 proved C30_pad_depad C30_depad_pad
C31 partial C31_partial C31_one_row C31_violated
  The property fails for a single row, which is broadcast to all non-empty nodes (C31_one_row, C31_violated); every other wrong height is rejected (C31_partial).
C32 proved C32_octree2col
C33 proved C33_adjoint
C34 proved C34_stride1 C34_stride2
C35 proved C35_chunks C35_chunked_eq_direct
C36 partial C36_partial C36_small_buffer_raises C36_violated
  The property fails for a buffer that cannot hold one row (C36_violated); for every buffer of at least one row the size of the chunks is computed without an exception (C36_partial), and the result is then the convolution, for every such buffer size and both methods, by C34 and C35.
C37 proved C37_gradients C37_bilinear
C38 proved C38_transpose C38_gradients
C39 proved C39_depthwise C39_module
C40 proved C40_init C40_group
C41 proved C41_conv C41_deconv
C42 proved C42_max_pool
C43 proved C43_unpool C43_pool_again
C44 partial C44_partial C44_built C44_violated
  The property fails when a non-empty node has no non-empty child (C44_violated); it is proved otherwise, and for all octrees built from points at depths from full_depth.
C45 partial C45_partial C45_height C45_violated
  The property fails with nempty=False when the coarser layer has empty nodes: they get no row (C45_height, C45_violated); proved for nempty=True.
C46 proved C46_avg_pool C46_bounds
C47 proved C47_global_pool
C48 proved C48_voxel
C49 proved C49_align C49_self C49_empty C49_via C49_back C49_search_value
C50 proved C50_nearest
C51 proved C51_bound_check
C52 proved C52_nearest_upsample C52_centres C52_upsample C52_repeated
C53 proved C53_weights C53_linear C53_none C53_centre
C54 partial C54_partial C54_support C54_violated
  The property fails near the boundary with the default bound_check=False: corner coordinates wrap around (C54_violated); it is proved with bound_check and for points at least half a cell away from the boundary.
C55 partial C55_partial C55_rescaled C55_violated
  The property fails with the default rescale_pts=True, which overwrites the caller's query tensor (C55_violated); proved without rescaling.
C56 proved C56_group_norm C56_alone C56_init C56_instance
C57 proved C57_identity C57_drop
C59 proved C59_slice C59_slice_wrong_length C59_clip
C60 proved C60_merge C60_empty
C61 proved C61_rotate
C62 proved C62_flip C62_unknown C62_involution C62_order
C63 proved C63_scale C63_ones C63_zero C63_unit
C64 proved C64_bbox C64_bbox_empty C64_normalize
C65 proved C65_orient C65_orient_xyz C65_no_normals
C66 partial C66_partial C66_violated
  The property fails for normals with a zero component along the axis (C66_violated); it is proved for all others.
C67 partial C67_partial C67_columns C67_violated C67_checks
  The property fails for batch_id of shape (N,), which always raises (C67_violated); it is proved for shape (N,1).
C69 partial C69_partial C69_violated
  The property fails: batch_size is reset to 1 (C69_violated); it is proved for all other attributes.
C84 proved C84_deconv
C15 proved C15_batch
  batch_nnum is not compared: building leaves it zero, merging fills it in.
C16 proved C16_merge
C17 partial C17_partial C17_violated
  The property fails when an octree of the list already holds several samples (C17_violated); it is proved for single-sample octrees.
C58 proved C58_ready C58_sample C58_conv C58_deconv C58_max_pool C58_avg_pool C58_global_pool C58_group_norm C58_pad_upsample C58_networks
C68 partial C68_partial C68_centres_partial C68_violated
  The property is false: to_points always raises, because the flat batch indices it passes fail the shape check of
  Points (C68_violated). Proved: the coordinates and batch indices computed before the failing constructor call.
C70 proved C70_to C70_queries C70_valid
C73 proved C73_input_feature C73_no_letter
C74 proved C74_scatter_add C74_broadcast C74_order C74_bad_index C74_negative_index C74_bad_length C74_total
C75 proved C75_exclusive C75_inclusive
C76 proved C76_resize C76_resize_raises C76_names C76_kernel_name
C71 proved C71_transform C71_parameters
C72 proved C72_collate C72_empty C72_missing C72_label_lost
C80 proved C80_aggregate C80_filtered
C81 proved C81_iou C81_accuracy
C82 partial C82_cover_partial C82_small C82_violated C82_dropped
  The property is false: scenes with negative coordinates are not covered (C82_violated), and crops with fewer than 3000
  vertices are dropped (C82_dropped). Proved for non-negative coordinates and crops with enough vertices.
C83 partial C83_merge_partial C83_violated
  The property is false from the eleventh chunk on (C83_violated). Proved for chunk numbers 0 to 9.
C85 proved C85_labels
C77 proved C77_lenet C77_lenet_depth C77_resnet C77_hrnet C77_unet unetConfig_ok C77_autoencoder C77_autoencoder_update C77_decode_code
C78 partial C78_partial C78_raises C78_violated
  The property is false: SegNet builds its bottleneck without nempty, so with nempty=True it raises on every octree with an
  empty octant at depth - stages (C78_raises, C78_violated). Proved for nempty=False and for octrees without such octants.
C79 partial C79_resblock2_partial C79_resblock C79_autoencoder_partial C79_ounet_violated C79_resblock2_violated
  The property is false: no call constructs an OUNet and OctreeResBlock2 with stride=2 raises. Proved for OctreeResBlock2 with
  stride=1, OctreeResBlock with both strides and the constructor call of AutoEncoder.
C86 proved C86_lenet C86_resnet C86_hrnet C86_unet C86_segnet C86_autoencoder
C87 proved C87_decoder C87_teacher_forcing C87_fixpoint C87_predicts_generated
C88 partial C88_prepare C88_methods C88_epochs_partial C88_flipped C88_violated
  The property is false: Points.flip multiplies in place, and the normals (with the base class also the coordinates) share the memory of the arrays, so a drawn flip reverses the data of all later epochs (C88_flipped for every sample, C88_violated for a concrete pair of epochs); orient_normal('xyz') without augmentation also works in place. C88_prepare says exactly which arrays can change; C88_epochs_partial proves the property for KITTI and for all draws without flip.
C89 proved C89_octree2pts C89_mismatch C89_eval C89_tangent
  F.normalize is an arbitrary function of a row; coordinates are rationals.
C90 proved C90_loss C90_small_loss C90_perfect C90_total C90_small_total
  The negative log-likelihood of a row and F.normalize are arbitrary functions (log 2 enters as a lower bound for the cost of a wrong prediction); the values are rationals. Octrees without points are excluded (the losses are not numbers there).
C91 partial C91_decode_batch_partial C91_decode_batch_violated C92_generates_batch_partial
  False as stated: a sample for which no node is predicted to have children gets a node when it is decoded alone, but not in a batch. Proved for batches in which every sample predicts a split in every layer.
C92 proved C92_shapes C92_generates C92_view C92_wrong_batch C92_no_octree C92_teacher_forcing C92_perfect C92_independent
  The image encoder is an arbitrary function; F.normalize and the negative log-likelihood are arbitrary functions.
C93 proved C93_stride1 C93_stride2 C93_points
  Both nempty flags for stride 1, nempty=True for stride 2; the two octrees may have different depths.
C94 proved C94_resnet C94_hrnet C94_unet C94_segnet C94_classification C94_segmentation C94_training_resnet C94_training_hrnet C94_training_unet C94_training_classification C94_training_segmentation
  Training mode: no batch normalisation over a single row (torch raises). SegNet (evaluation mode) needs nempty=False or no empty octants at the bottleneck (C78). LeNet is not translation invariant: its header flattens the voxel grid.
C95 proved C95_segmentation C95_classification
  Evaluation mode. SegNet needs nempty=False or no empty octants at the bottleneck (C78); LeNet needs depth = stages + 2 (C78).
C96 proved C96_counts C96_epoch C96_range C96_rebatched
  Evaluation mode; exact arithmetic. The tracker of the external package thsolver is taken to average each entry over the batches; the loss is not modelled.
C97 partial C97_partial C97_grid C97_violated f32_nearest f32_isF32
  The property fails for the largest float32 number below 1, 1 - 2^-24: adding 1 rounds to 2 and the point wraps to the opposite face (C97_violated, every depth). Proved for all coordinates below it, and exactly for multiples of 2^-23. The rounding of the means over the points of a leaf is the subject of C161.
C98 proved C98_classification C98_segmentation
  The sums over the points of a leaf and over the rows of a batch normalization are exact here; float32 sums may differ in the last bits.
C99 proved C99_label C99_instances C99_names C99_points C99_range C99_refused
  Coordinates are exact; numpy stores the labels as floats.
C100 partial C100_partial C100_violated
  The property fails for directories whose name contains 'velodyne' or '.bin'.
C101 proved C101_completion C101_all_kept C101_refused
  Coordinates are exact; the program that uses the data cannot construct its network (C79).
C102 partial C102_partial C102_order C102_violated C102_dark
  The property fails for clouds with a constant channel; colours are exact rationals or not-a-number.
C103 proved C103_pass C103_elastic C103_empty
  Coordinates are exact; the behaviour of scipy's convolve and RegularGridInterpolator is modelled from their documentation.
C104 proved C104_scannet C104_range C104_empty
  Coordinates are exact.
C105 proved C105_normals C105_order C105_isolated C105_length C105_rigid C105_align
  Coordinates are exact and the square root is any non-negative function, exact where the length is claimed; lines of the alignment file are given as parsed pairs.
C106 proved C106_labels C106_mapped C106_order
C107 partial C107_partial C107_regroup C107_range C107_absent C107_nan C107_errors C107_violated
  The property fails if a class is absent, or a file has no labelled point. Sums are exact.
C108 proved C108_ply C108_npz C108_file C108_points C108_missing
  Files are the columns of the element, respectively the arrays, that the libraries write; the bytes on disk are not modelled.
C109 proved C109_scene C109_assert
  Arithmetic before rounding to single precision is exact.
C110 proved C110_tables C110_file
C111 partial C111_partial C111_violated
  The property fails for names of shapes that contain the id of a category.
C112 proved C112_labels C112_full C112_nested C112_order C112_classes
C113 proved C113 C113_disjoint C113_order
C114 proved C114_listed C114_disjoint C114_share C114_order
C115 proved C115_stride1 C115_stride2
C116 proved C116_stride1 C116_stride2 C116_full
C117 proved C117_affine C117_full C117_range
  Arithmetic is exact.
C118 proved C118_receptive
C119 proved C119_depth C119_full C119_more
C120 proved C120_scatter_add C120_range
C121 proved C121_xavier
  The square root is an abstract function with its defining property; the distribution of the random numbers is not modelled, only the map from [0, 1).
C122 proved C122_npz C122_xyz C122_rejected
  Rounding of numbers in the text format is an abstract function.
C123 proved C123_example
C124 proved C124_weights C124_product C124_file
C125 partial C125_partial C125_violated
  The bias of a 1x1 convolution inside a module called conv1x1 goes to another module than its weight.
C126 proved C126_keep C126_small C126_solver
C127 proved C127_list
C128 proved C128_points C128_leaves
C129 proved C129_flip
  Points on a plane between two finest cells go to the upper cell before and after the flip, so they are excluded.
C130 proved C130_levels C130_up_down C130_built
C131 proved C131_stats
  The square root is an abstract function with its defining property over any ordered field.
C132 proved C132_ball C132_pose C132_align C132_box
  The miniball package is an abstract function; that it finds the smallest ball is a hypothesis where it is used.
C133 proved C133_clean C133_again
C134 proved C134_modelnet C134_type
  Sampling on the mesh and rounding to single precision are abstract functions.
C135 proved C135_lists C135_files
C136 proved C136_images C136_digits C136_points
C137 proved C137_mean
C138 proved C138_conv C138_deconv
C139 proved C139_zoom
C140 proved C140_loss C140_all_right C140_shift C140_labels
  Over the real numbers, with the exponential function and logarithm of Mathlib.
C141 proved C141_softmax C141_votes
  Over the real numbers, with the exponential function of Mathlib.
C142 proved C142_counts
C143 proved C143_classification C143_segmentation
C144 proved C144_classification C144_segmentation C144_shapenet
  The default values of the external solver package are an assumption, stated with the model.
C145 proved C145_devices
C146 partial C146_partial C146_violated
  Holds for tensors and for no batch index. An integer raises AttributeError, because the code calls long() on it.
C147 partial C147_partial C147_violated
  Holds for operations that can be called with two arguments. The convolutions of the package need the depth, which the wrapper does not pass (TypeError).
C148 proved C148_classification C148_segmentation
C149 proved C149_labels C149_unseen C149_validate C149_right
C150 proved C150_build C150_merge C150_decode C150_neigh C150_init C150_bound_child
C151 proved C151_forward C151_methods C151_agree C151_gradients
C152 partial C152_partial C152_violated
  Holds for programs that do not change a list after passing it to a layer. The constructor extends the list of the caller in place, and a later change of the list changes the kernel of layers that do not use the direct method.
C153 proved C153_translate C153_rotate C153_rotate_add C153_scale
C154 partial C154_partial C154_violated
  Holds for clouds without normals, and for clouds with normals unless all three axes are flipped: scaling by (-1, -1, -1) leaves the normals as they are, flipping negates them.
C155 proved C155_points C155_input C155_resnet C155_hrnet C155_unet C155_classification C155_segmentation C155_decoder C155_autoencoder
  SegNet (its unpooling follows positions of maxima, ties are not turned) and LeNet (its head lists the voxels in a fixed order) are left out. Exact arithmetic.
C156 partial C156_partial C156_levels_partial C156_affine_partial C156_violated
  Violated at the boundary of the cube: the layer never asks for the boundary check, so a node there also gets features of coarse nodes on the other side of the cube. Holds for all nodes that do not touch the boundary. Exact arithmetic, up to the 1e-12 added to the sum of weights.
C157 proved C157_generation C157_autoencoder
  Exact arithmetic. A layer without predicted nodes is excluded: octree_split then adds the first node (C91), which is not turned.
C158 partial C158_violated C158_encoder_partial C158_forward_partial C158_skip_partial C158_generate_partial C158_teacher_forcing_partial C158_fixpoint_partial C158_batch_partial
  Violated: besides the constructor (C79), the decoder is built for 64 channels at the full depth, but starts from the features of the encoder, which have 512, 256, 128, 32 or 16 channels there; forward raises for every full depth. The method get_input_feature that encoder calls does not exist either; the model takes the input feature as an argument. Everything else is proved for a decoder that starts with the channels of the encoder (hypothesis hcode), for inputs with an octant at every depth.
C159 partial C159_violated C159_partial C159_any C159_periodic C159_inside C159_unique
  Violated for every cloud with a point outside [-1, 1): building succeeds and counts the point in a node that does not contain it. C159_any says which one: coordinates from -1 on are taken modulo 2, coordinates below -1 in addition one cell further up, as the conversion to integers rounds towards zero. C159_periodic: clouds that agree modulo 2 have the same octree.
C160 partial C160_violated C160_partial C160_translate C160_scale C160_bound C160_extent
  Exact for translations. Violated for magnification: the 1e-6 added to the size of the box does not scale. C160_scale gives the exact factor, C160_bound how much it can move a coordinate.
C161 partial C161_terms C161_partial C161_error C161_violated
  The averages stay inside the node when (points in the node) * 2^depth <= 2^24; C161_violated: 257 equal points at depth 16 have an average outside their node.
C162 proved C162_layers C162_single
C163 partial C163_terms C163_partial C163_saturates C163_violated
  Holds for samples with at most 2^p nodes. C163_saturates/C163_violated: with more nodes, ones added up row by row stop at 2^p, so that features with mean 1/2 are pooled to 1 (11 bits, full layer at depth 4).
C164 partial C164_bound C164_partial C164_violated_large C164_violated_far
  Bound for all clouds; the claim holds with scale 1 when 9*extent + 2*offset <= 16, and with scale <= 0.99 when the cloud is not further from the origin than 2^16 times its extent. C164_violated_large: from extent 32 on the constant 1e-6 is lost, opposite corners are normalised onto the faces and stored in the same leaf; C164_violated_far: coordinates near 2^24 are normalised to 1.99.
C165 proved C165_clip C165_margin
  C165_margin: with margin 0 a point is kept and stored at the opposite corner.
C166 proved C166_conv C166_deconv C166_modules C166_resblock C166_resblocks C166_classification C166_segmentation C166_skip C166_autoencoder
  Tensors are references into a memory with version counters and a list of what autograd keeps (at least what torch keeps); the query points that OctreeInterp overwrites are the subject of another property and are values here.
C167 partial C167_output C167_again C167_evaluation_partial C167_statistics C167_differ C167_violated C167_runs
  Outputs, errors and the blocks run again agree; evaluation mode leaves the buffers alone. Violated in training mode: every batch normalization of a checkpointed block updates its buffers twice per step, so the effective momentum is 0.19 instead of 0.1 (C167_statistics gives both values exactly, C167_differ says when they agree).
C168 partial C168_partial C168_no_folder C168_default C168_violated
  Violated: the preparation writes to data/scannet.ply by default, which the training reads, but validation, test and the list of train_all are read from data/scannet; so validation and test fail after the documented commands, and train_all fails whatever folder is chosen. What holds: with the data prepared in both folders every command finds its files, and checkpoint, prediction and label folders agree for every alias without a slash. The rule for the folder of a run belongs to the package thsolver and is taken as logdir_alias.
C169 proved C169_unet C169_radius C169_crop
  The radius is an upper bound obtained by adding up the kernels; that it cannot be smaller is not claimed.
C170 proved C170_nodes C170_averages
  Averages in exact arithmetic; normals are normalised sums and have no such rule.
C171 proved C171_files C171_error C171_moved C171_shapes
  The sampling of a mesh is a parameter; overflow of float16 is not modelled (the bounds need |x| <= 1).
C172 proved C172_same C172_determines C172_reduced
  In exact arithmetic; C172_reduced asks that normalising a stored normal again does not change it.
C173 partial C173_conv_partial C173_deconv_partial C173_interp_partial C173_pad_partial C173_align_partial C173_global_partial C173_violated C173_violated_direct C173_violated_avg C173_violated_max
  Violated by the code: convolutions with direct_method=True and average pooling ignore additional rows silently, max pooling on all nodes accepts every tensor of eight rows and broadcasts its maximum. Proved for the layers of the default method, the interpolations, align, pad (except for a single row) and the global pooling (except when the layer has one row, where the index is broadcast).
C174 proved C174_error C174_range
  The rounding of the coordinates, fractions and weights is modelled exactly (rounding to nearest), sums, products and quotients by error bounds that cover every order, fused multiply-add and underflow; overflow is not modelled.
C175 partial C175_promote C175_keeps_partial C175_norm_partial C175_align_partial C175_avg_partial C175_linear_partial C175_upsample_partial C175_violated
  Violated: torch.zeros without a type in search_value, and weights of the default type in average pooling and linear interpolation, reject features of other types. The partial theorems say exactly which types each operation accepts. The model keeps only the types of the tensors; the rules of torch that are assumed are listed in the module.
C176 proved C176_function C176_layer C176_depthwise C176_direct C176_agree
  The model keeps only the types of the tensors; the rules of torch and of autocast that are assumed are listed in the module DTypes.
C177 proved C177_distort C177_plain C177_octree C177_pipeline
  The model keeps only the types of the tensors; the rules of torch that are assumed are listed in the modules DTypes and PointTypes.
C178 partial C178_partial C178_exact C178_error C178_violated
  Violated for clouds of more than 2^24 points: torch.Tensor([p.npt for p in points]).long() rounds the sizes to 24 significant bits.
C179 partial C179_neigh_partial C179_same_partial C179_to_partial C179_merge_partial C179_violated C179_violated_merge
  Violated: Octree(depth).build_octree(points on a GPU) leaves the look-up tables on the CPU, so that construct_all_neigh raises; and merge_octrees compares device strings with device objects. The model keeps only the devices of the tensors; the rules of torch that are assumed are listed in the module.
C180 proved C180_mean C180_few C180_interior
  C46 is about exact arithmetic; here the weights are rounded as in the code and the sums are any admissible floating-point evaluation (FloatConv.Rounded). Overflow is not modelled.
C181 partial C181_rate_partial C181_values_partial C181_layer C181_violated
  Violated for drop probabilities below the resolution of the arithmetic: the sum of draw and keep probability can round to 2. C57 and C137 are about exact arithmetic.
C182 proved C182_max C182_all C182_built C182_again C182_avg
  the values of the result at every node, the pooling indices, the whole tensor for octrees built from points, and the idempotence of pooling
C183 partial C183_affine_partial C183_scale_partial C183_constant_partial C183_violated
  the exact effect of factors and offsets is proved; the invariance itself is false because the mean is computed with n + eps in the denominator
C184 proved C184_stale C184_again C184_device C184_merged
  With full_depth = 0 the table of the root is an input of the construction (see C28), so C184_stale then asks for the same root table.
C185 proved ShapeScript.C185_own_log ShapeScript.C185_rows ShapeScript.C185_read ShapeScript.C185_schedule ShapeScript.C185_last_epoch ShapeScript.C185_means ShapeScript.C185_collision ShapeScript.C185_last_epoch_other
  The schedule is in exact arithmetic.  C185_collision and C185_last_epoch_other show that the conditions on the ratios are needed: ratios that are printed alike share a log, and with 30 % of the data the last epoch of Bag is not tested.  The training program and the folder of its log are parameters (package thsolver).
C186 proved C186_parallel C186_embed C186_linear C186_identity
  Exact arithmetic; the buffered method needs a buffer for one row (see C36).
C187 proved C187_segnet C187_crop C187_radius
  The radius is an upper bound obtained by adding up the kernels; that it cannot be smaller is not claimed. With nempty=True SegNet raises on octrees with empty nodes at the depth of the bottleneck (C78).
C188 proved C188_mirror C188_upsample C188_pool
C189 partial C189_fold_partial C189_strided C189_deconv C189_linear C189_violated
  OctreeConv adds the bias before octree_pad fills the empty nodes with 0 (octree_conv.py 381-385), so for stride 2 and nempty=False the folded layer gives 0 at empty nodes where OctreeConvBn gives the constants of the normalisation (C189_violated; C189_strided states both outputs completely). Everywhere else folding is exact: C189_fold_partial for stride 1, nempty=True or a coarser layer without empty nodes, C189_deconv and C189_linear without restriction.
C190 partial C190_bias_partial C190_shift C190_statistics C190_single C190_violated
  For stride 2 and nempty=False the bias does change the normalised result when the coarser layer has empty nodes, because octree_pad fills them with 0 after the bias was added (C190_violated). C190_bias_partial covers stride 1, nempty=True and coarser layers without empty nodes. C190_statistics assumes an exact square root.
C191 proved C191_after C191_before
