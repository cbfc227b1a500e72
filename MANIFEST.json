{
 "claims": [
  {
   "property": "C01",
   "status": "proved",
   "theorems": [
    "Ocnn.C01_key_roundtrip",
    "Ocnn.C01_key_roundtrip_nobatch"
   ],
   "note": ""
  },
  {
   "property": "C02",
   "status": "proved",
   "theorems": [
    "Ocnn.C02_decode_encode"
   ],
   "note": ""
  },
  {
   "property": "C03",
   "status": "proved",
   "theorems": [
    "Ocnn.C03_encode_is_morton",
    "Ocnn.C03_table_eq_loop"
   ],
   "note": ""
  },
  {
   "property": "C04",
   "status": "proved",
   "theorems": [
    "Ocnn.C04_hierarchical"
   ],
   "note": ""
  },
  {
   "property": "C05",
   "status": "proved",
   "theorems": [
    "Ocnn.C05_batch_major",
    "Ocnn.C05_depth_first",
    "Ocnn.C05_subtree_contiguous",
    "Ocnn.C05_encode_depth_first",
    "Ocnn.C05_encode_contiguous"
   ],
   "note": ""
  },
  {
   "property": "C06",
   "status": "proved",
   "theorems": [
    "Ocnn.C06_batch_limit",
    "Ocnn.C06_coordinate_limit",
    "Ocnn.C06_depth_limit"
   ],
   "note": ""
  },
  {
   "property": "C07",
   "status": "proved",
   "theorems": [
    "Ocnn.C07_build"
   ],
   "note": ""
  },
  {
   "property": "C08",
   "status": "proved",
   "theorems": [
    "Ocnn.C08_leaf_index"
   ],
   "note": ""
  },
  {
   "property": "C09",
   "status": "proved",
   "theorems": [
    "Ocnn.C09_invariants"
   ],
   "note": ""
  },
  {
   "property": "C10",
   "status": "proved",
   "theorems": [
    "Ocnn.C10_dense",
    "Ocnn.C09_invariants"
   ],
   "note": ""
  },
  {
   "property": "C11",
   "status": "proved",
   "theorems": [
    "Ocnn.C11_averages"
   ],
   "note": ""
  },
  {
   "property": "C12",
   "status": "proved",
   "theorems": [
    "Ocnn.C12_inside",
    "Ocnn.C12_rebuild"
   ],
   "note": ""
  },
  {
   "property": "C13",
   "status": "proved",
   "theorems": [
    "Ocnn.C13_order",
    "Ocnn.C13_duplicates"
   ],
   "note": ""
  },
  {
   "property": "C14",
   "status": "partial",
   "theorems": [
    "Ocnn.C14_partial",
    "Ocnn.C14_wraps",
    "Ocnn.C14_violated"
   ],
   "note": "The property fails for points with a coordinate equal to 1, which wrap to the opposite face (C14_violated, C14_wraps); it is proved for [-1, 1)."
  },
  {
   "property": "C18",
   "status": "proved",
   "theorems": [
    "Ocnn.C18_split",
    "Ocnn.C18_split_empty"
   ],
   "note": ""
  },
  {
   "property": "C19",
   "status": "proved",
   "theorems": [
    "Ocnn.C19_decode",
    "Ocnn.C19_decode_prefix",
    "Ocnn.C19_decode_logits"
   ],
   "note": ""
  },
  {
   "property": "C20",
   "status": "proved",
   "theorems": [
    "Ocnn.C20_replay"
   ],
   "note": ""
  },
  {
   "property": "C21",
   "status": "proved",
   "theorems": [
    "Ocnn.C21_neigh_exact",
    "Ocnn.C21_neigh_step"
   ],
   "note": ""
  },
  {
   "property": "C22",
   "status": "proved",
   "theorems": [
    "Ocnn.C22_symmetric"
   ],
   "note": ""
  },
  {
   "property": "C23",
   "status": "proved",
   "theorems": [
    "Ocnn.C24_get_neigh_stride1",
    "Ocnn.C23_get_neigh_stride2",
    "Ocnn.C23_bad_stride",
    "Ocnn.C23_bad_kernel"
   ],
   "note": ""
  },
  {
   "property": "C24",
   "status": "proved",
   "theorems": [
    "Ocnn.C24_get_neigh_stride1",
    "Ocnn.C23_get_neigh_stride2"
   ],
   "note": ""
  },
  {
   "property": "C25",
   "status": "proved",
   "theorems": [
    "Ocnn.C25_get_neigh",
    "Ocnn.C25_alias",
    "Ocnn.C25_search_key",
    "Ocnn.C25_merge",
    "Ocnn.C25_history",
    "Ocnn.C25_storable"
   ],
   "note": "Second model with a heap of tensors and views (Heap); the results are shown equal to those of the value model."
  },
  {
   "property": "C26",
   "status": "proved",
   "theorems": [
    "Ocnn.C26_search_key",
    "Ocnn.C26_search_xyzb"
   ],
   "note": ""
  },
  {
   "property": "C27",
   "status": "proved",
   "theorems": [
    "Ocnn.C27_xyzb"
   ],
   "note": ""
  },
  {
   "property": "C28",
   "status": "partial",
   "theorems": [
    "Ocnn.C28_partial",
    "Ocnn.C28_violated",
    "Ocnn.C28_full_depth_zero_raises"
   ],
   "note": "The property fails for full_depth = 0 (C28_violated: every legal point cloud); it is proved for full_depth >= 1."
  },
  {
   "property": "C29",
   "status": "partial",
   "theorems": [
    "Ocnn.C29_partial",
    "Ocnn.C29_stale",
    "Ocnn.C29_violated"
   ],
   "note": "The property fails: neighbour tables, and normals and features the new point cloud lacks, keep their old contents (C29_stale, C29_violated); it is proved for everything else."
  },
  {
   "property": "C30",
   "status": "proved",
   "theorems": [
    "Ocnn.C30_pad_depad",
    "Ocnn.C30_depad_pad"
   ],
   "note": ""
  },
  {
   "property": "C31",
   "status": "partial",
   "theorems": [
    "Ocnn.C31_partial",
    "Ocnn.C31_one_row",
    "Ocnn.C31_violated"
   ],
   "note": "The property fails for a single row, which is broadcast to all non-empty nodes (C31_one_row, C31_violated); every other wrong height is rejected (C31_partial)."
  },
  {
   "property": "C32",
   "status": "proved",
   "theorems": [
    "Ocnn.C32_octree2col"
   ],
   "note": ""
  },
  {
   "property": "C33",
   "status": "proved",
   "theorems": [
    "Ocnn.C33_adjoint"
   ],
   "note": ""
  },
  {
   "property": "C34",
   "status": "proved",
   "theorems": [
    "Ocnn.C34_stride1",
    "Ocnn.C34_stride2"
   ],
   "note": ""
  },
  {
   "property": "C35",
   "status": "proved",
   "theorems": [
    "Ocnn.C35_chunks",
    "Ocnn.C35_chunked_eq_direct"
   ],
   "note": ""
  },
  {
   "property": "C36",
   "status": "partial",
   "theorems": [
    "Ocnn.C36_partial",
    "Ocnn.C36_small_buffer_raises",
    "Ocnn.C36_violated"
   ],
   "note": "The property fails for a buffer that cannot hold one row (C36_violated); for every buffer of at least one row the size of the chunks is computed without an exception (C36_partial), and the result is then the convolution, for every such buffer size and both methods, by C34 and C35."
  },
  {
   "property": "C37",
   "status": "proved",
   "theorems": [
    "Ocnn.C37_gradients",
    "Ocnn.C37_bilinear"
   ],
   "note": ""
  },
  {
   "property": "C38",
   "status": "proved",
   "theorems": [
    "Ocnn.C38_transpose",
    "Ocnn.C38_gradients"
   ],
   "note": ""
  },
  {
   "property": "C39",
   "status": "proved",
   "theorems": [
    "Ocnn.C39_depthwise",
    "Ocnn.C39_module"
   ],
   "note": ""
  },
  {
   "property": "C40",
   "status": "proved",
   "theorems": [
    "Ocnn.C40_init",
    "Ocnn.C40_group"
   ],
   "note": ""
  },
  {
   "property": "C41",
   "status": "proved",
   "theorems": [
    "Ocnn.C41_conv",
    "Ocnn.C41_deconv"
   ],
   "note": ""
  },
  {
   "property": "C42",
   "status": "proved",
   "theorems": [
    "Ocnn.C42_max_pool"
   ],
   "note": ""
  },
  {
   "property": "C43",
   "status": "proved",
   "theorems": [
    "Ocnn.C43_unpool",
    "Ocnn.C43_pool_again"
   ],
   "note": ""
  },
  {
   "property": "C44",
   "status": "partial",
   "theorems": [
    "Ocnn.C44_partial",
    "Ocnn.C44_built",
    "Ocnn.C44_violated"
   ],
   "note": "The property fails when a non-empty node has no non-empty child (C44_violated); it is proved otherwise, and for all octrees built from points at depths from full_depth."
  },
  {
   "property": "C45",
   "status": "partial",
   "theorems": [
    "Ocnn.C45_partial",
    "Ocnn.C45_height",
    "Ocnn.C45_violated"
   ],
   "note": "The property fails with nempty=False when the coarser layer has empty nodes: they get no row (C45_height, C45_violated); proved for nempty=True."
  },
  {
   "property": "C46",
   "status": "proved",
   "theorems": [
    "Ocnn.C46_avg_pool",
    "Ocnn.C46_bounds"
   ],
   "note": ""
  },
  {
   "property": "C47",
   "status": "proved",
   "theorems": [
    "Ocnn.C47_global_pool"
   ],
   "note": ""
  },
  {
   "property": "C48",
   "status": "proved",
   "theorems": [
    "Ocnn.C48_voxel"
   ],
   "note": ""
  },
  {
   "property": "C49",
   "status": "proved",
   "theorems": [
    "Ocnn.C49_align",
    "Ocnn.C49_self",
    "Ocnn.C49_empty",
    "Ocnn.C49_via",
    "Ocnn.C49_back",
    "Ocnn.C49_search_value"
   ],
   "note": ""
  },
  {
   "property": "C50",
   "status": "proved",
   "theorems": [
    "Ocnn.C50_nearest"
   ],
   "note": ""
  },
  {
   "property": "C51",
   "status": "proved",
   "theorems": [
    "Ocnn.C51_bound_check"
   ],
   "note": ""
  },
  {
   "property": "C52",
   "status": "proved",
   "theorems": [
    "Ocnn.C52_nearest_upsample",
    "Ocnn.C52_centres",
    "Ocnn.C52_upsample",
    "Ocnn.C52_repeated"
   ],
   "note": ""
  },
  {
   "property": "C53",
   "status": "proved",
   "theorems": [
    "Ocnn.C53_weights",
    "Ocnn.C53_linear",
    "Ocnn.C53_none",
    "Ocnn.C53_centre"
   ],
   "note": ""
  },
  {
   "property": "C54",
   "status": "partial",
   "theorems": [
    "Ocnn.C54_partial",
    "Ocnn.C54_support",
    "Ocnn.C54_violated"
   ],
   "note": "The property fails near the boundary with the default bound_check=False: corner coordinates wrap around (C54_violated); it is proved with bound_check and for points at least half a cell away from the boundary."
  },
  {
   "property": "C55",
   "status": "partial",
   "theorems": [
    "Ocnn.C55_partial",
    "Ocnn.C55_rescaled",
    "Ocnn.C55_violated"
   ],
   "note": "The property fails with the default rescale_pts=True, which overwrites the caller's query tensor (C55_violated); proved without rescaling."
  },
  {
   "property": "C56",
   "status": "proved",
   "theorems": [
    "Ocnn.C56_group_norm",
    "Ocnn.C56_alone",
    "Ocnn.C56_init",
    "Ocnn.C56_instance"
   ],
   "note": ""
  },
  {
   "property": "C57",
   "status": "proved",
   "theorems": [
    "Ocnn.C57_identity",
    "Ocnn.C57_drop"
   ],
   "note": ""
  },
  {
   "property": "C59",
   "status": "proved",
   "theorems": [
    "Ocnn.C59_slice",
    "Ocnn.C59_slice_wrong_length",
    "Ocnn.C59_clip"
   ],
   "note": ""
  },
  {
   "property": "C60",
   "status": "proved",
   "theorems": [
    "Ocnn.C60_merge",
    "Ocnn.C60_empty"
   ],
   "note": ""
  },
  {
   "property": "C61",
   "status": "proved",
   "theorems": [
    "Ocnn.C61_rotate"
   ],
   "note": ""
  },
  {
   "property": "C62",
   "status": "proved",
   "theorems": [
    "Ocnn.C62_flip",
    "Ocnn.C62_unknown",
    "Ocnn.C62_involution",
    "Ocnn.C62_order"
   ],
   "note": ""
  },
  {
   "property": "C63",
   "status": "proved",
   "theorems": [
    "Ocnn.C63_scale",
    "Ocnn.C63_ones",
    "Ocnn.C63_zero",
    "Ocnn.C63_unit"
   ],
   "note": ""
  },
  {
   "property": "C64",
   "status": "proved",
   "theorems": [
    "Ocnn.C64_bbox",
    "Ocnn.C64_bbox_empty",
    "Ocnn.C64_normalize"
   ],
   "note": ""
  },
  {
   "property": "C65",
   "status": "proved",
   "theorems": [
    "Ocnn.C65_orient",
    "Ocnn.C65_orient_xyz",
    "Ocnn.C65_no_normals"
   ],
   "note": ""
  },
  {
   "property": "C66",
   "status": "partial",
   "theorems": [
    "Ocnn.C66_partial",
    "Ocnn.C66_violated"
   ],
   "note": "The property fails for normals with a zero component along the axis (C66_violated); it is proved for all others."
  },
  {
   "property": "C67",
   "status": "partial",
   "theorems": [
    "Ocnn.C67_partial",
    "Ocnn.C67_columns",
    "Ocnn.C67_violated",
    "Ocnn.C67_checks"
   ],
   "note": "The property fails for batch_id of shape (N,), which always raises (C67_violated); it is proved for shape (N,1)."
  },
  {
   "property": "C69",
   "status": "partial",
   "theorems": [
    "Ocnn.C69_partial",
    "Ocnn.C69_violated"
   ],
   "note": "The property fails: batch_size is reset to 1 (C69_violated); it is proved for all other attributes."
  },
  {
   "property": "C84",
   "status": "proved",
   "theorems": [
    "Ocnn.C84_deconv"
   ],
   "note": ""
  },
  {
   "property": "C15",
   "status": "proved",
   "theorems": [
    "Ocnn.C15_batch"
   ],
   "note": "batch_nnum is not compared: building leaves it zero, merging fills it in."
  },
  {
   "property": "C16",
   "status": "proved",
   "theorems": [
    "Ocnn.C16_merge"
   ],
   "note": ""
  },
  {
   "property": "C17",
   "status": "partial",
   "theorems": [
    "Ocnn.C17_partial",
    "Ocnn.C17_violated"
   ],
   "note": "The property fails when an octree of the list already holds several samples (C17_violated); it is proved for single-sample octrees."
  },
  {
   "property": "C58",
   "status": "proved",
   "theorems": [
    "Ocnn.C58_ready",
    "Ocnn.C58_sample",
    "Ocnn.C58_conv",
    "Ocnn.C58_deconv",
    "Ocnn.C58_max_pool",
    "Ocnn.C58_avg_pool",
    "Ocnn.C58_global_pool",
    "Ocnn.C58_group_norm",
    "Ocnn.C58_pad_upsample",
    "Ocnn.C58_networks"
   ],
   "note": ""
  },
  {
   "property": "C68",
   "status": "partial",
   "theorems": [
    "Ocnn.C68_partial",
    "Ocnn.C68_centres_partial",
    "Ocnn.C68_violated"
   ],
   "note": "The property is false: to_points always raises, because the flat batch indices it passes fail the shape check of Points (C68_violated). Proved: the coordinates and batch indices computed before the failing constructor call."
  },
  {
   "property": "C70",
   "status": "proved",
   "theorems": [
    "Ocnn.C70_to",
    "Ocnn.C70_queries",
    "Ocnn.C70_valid"
   ],
   "note": ""
  },
  {
   "property": "C73",
   "status": "proved",
   "theorems": [
    "Ocnn.C73_input_feature",
    "Ocnn.C73_no_letter"
   ],
   "note": ""
  },
  {
   "property": "C74",
   "status": "proved",
   "theorems": [
    "Ocnn.C74_scatter_add",
    "Ocnn.C74_broadcast",
    "Ocnn.C74_order",
    "Ocnn.C74_bad_index",
    "Ocnn.C74_negative_index",
    "Ocnn.C74_bad_length",
    "Ocnn.C74_total"
   ],
   "note": ""
  },
  {
   "property": "C75",
   "status": "proved",
   "theorems": [
    "Ocnn.C75_exclusive",
    "Ocnn.C75_inclusive"
   ],
   "note": ""
  },
  {
   "property": "C76",
   "status": "proved",
   "theorems": [
    "Ocnn.C76_resize",
    "Ocnn.C76_resize_raises",
    "Ocnn.C76_names",
    "Ocnn.C76_kernel_name"
   ],
   "note": ""
  },
  {
   "property": "C71",
   "status": "proved",
   "theorems": [
    "Ocnn.C71_transform",
    "Ocnn.C71_parameters"
   ],
   "note": ""
  },
  {
   "property": "C72",
   "status": "proved",
   "theorems": [
    "Ocnn.C72_collate",
    "Ocnn.C72_empty",
    "Ocnn.C72_missing",
    "Ocnn.C72_label_lost"
   ],
   "note": ""
  },
  {
   "property": "C80",
   "status": "proved",
   "theorems": [
    "Ocnn.C80_aggregate",
    "Ocnn.C80_filtered"
   ],
   "note": ""
  },
  {
   "property": "C81",
   "status": "proved",
   "theorems": [
    "Ocnn.C81_iou",
    "Ocnn.C81_accuracy"
   ],
   "note": ""
  },
  {
   "property": "C82",
   "status": "partial",
   "theorems": [
    "Ocnn.C82_cover_partial",
    "Ocnn.C82_small",
    "Ocnn.C82_violated",
    "Ocnn.C82_dropped"
   ],
   "note": "The property is false: scenes with negative coordinates are not covered (C82_violated), and crops with fewer than 3000 vertices are dropped (C82_dropped). Proved for non-negative coordinates and crops with enough vertices."
  },
  {
   "property": "C83",
   "status": "partial",
   "theorems": [
    "Ocnn.C83_merge_partial",
    "Ocnn.C83_violated"
   ],
   "note": "The property is false from the eleventh chunk on (C83_violated). Proved for chunk numbers 0 to 9."
  },
  {
   "property": "C85",
   "status": "proved",
   "theorems": [
    "Ocnn.C85_labels"
   ],
   "note": ""
  },
  {
   "property": "C77",
   "status": "proved",
   "theorems": [
    "Ocnn.C77_lenet",
    "Ocnn.C77_lenet_depth",
    "Ocnn.C77_resnet",
    "Ocnn.C77_hrnet",
    "Ocnn.C77_unet",
    "Ocnn.unetConfig_ok",
    "Ocnn.C77_autoencoder",
    "Ocnn.C77_autoencoder_update",
    "Ocnn.C77_decode_code"
   ],
   "note": ""
  },
  {
   "property": "C78",
   "status": "partial",
   "theorems": [
    "Ocnn.C78_partial",
    "Ocnn.C78_raises",
    "Ocnn.C78_violated"
   ],
   "note": "The property is false: SegNet builds its bottleneck without nempty, so with nempty=True it raises on every octree with an empty octant at depth - stages (C78_raises, C78_violated). Proved for nempty=False and for octrees without such octants."
  },
  {
   "property": "C79",
   "status": "partial",
   "theorems": [
    "Ocnn.C79_resblock2_partial",
    "Ocnn.C79_resblock",
    "Ocnn.C79_autoencoder_partial",
    "Ocnn.C79_ounet_violated",
    "Ocnn.C79_resblock2_violated"
   ],
   "note": "The property is false: no call constructs an OUNet and OctreeResBlock2 with stride=2 raises. Proved for OctreeResBlock2 with stride=1, OctreeResBlock with both strides and the constructor call of AutoEncoder."
  },
  {
   "property": "C86",
   "status": "proved",
   "theorems": [
    "Ocnn.C86_lenet",
    "Ocnn.C86_resnet",
    "Ocnn.C86_hrnet",
    "Ocnn.C86_unet",
    "Ocnn.C86_segnet",
    "Ocnn.C86_autoencoder"
   ],
   "note": ""
  },
  {
   "property": "C87",
   "status": "proved",
   "theorems": [
    "Ocnn.C87_decoder",
    "Ocnn.C87_teacher_forcing",
    "Ocnn.C87_fixpoint",
    "Ocnn.C87_predicts_generated"
   ],
   "note": ""
  },
  {
   "property": "C88",
   "status": "partial",
   "theorems": [
    "Ocnn.C88_prepare",
    "Ocnn.C88_methods",
    "Ocnn.C88_epochs_partial",
    "Ocnn.C88_flipped",
    "Ocnn.C88_violated"
   ],
   "note": "The property is false: Points.flip multiplies in place, and the normals (with the base class also the coordinates) share the memory of the arrays, so a drawn flip reverses the data of all later epochs (C88_flipped for every sample, C88_violated for a concrete pair of epochs); orient_normal('xyz') without augmentation also works in place. C88_prepare says exactly which arrays can change; C88_epochs_partial proves the property for KITTI and for all draws without flip."
  },
  {
   "property": "C89",
   "status": "proved",
   "theorems": [
    "Ocnn.C89_octree2pts",
    "Ocnn.C89_mismatch",
    "Ocnn.C89_eval",
    "Ocnn.C89_tangent"
   ],
   "note": "F.normalize is an arbitrary function of a row; coordinates are rationals."
  },
  {
   "property": "C90",
   "status": "proved",
   "theorems": [
    "Ocnn.C90_loss",
    "Ocnn.C90_small_loss",
    "Ocnn.C90_perfect",
    "Ocnn.C90_total",
    "Ocnn.C90_small_total"
   ],
   "note": "The negative log-likelihood of a row and F.normalize are arbitrary functions (log 2 enters as a lower bound for the cost of a wrong prediction); the values are rationals. Octrees without points are excluded (the losses are not numbers there)."
  },
  {
   "property": "C91",
   "status": "partial",
   "theorems": [
    "Ocnn.C91_decode_batch_partial",
    "Ocnn.C91_decode_batch_violated",
    "Ocnn.C92_generates_batch_partial"
   ],
   "note": "False as stated: a sample for which no node is predicted to have children gets a node when it is decoded alone, but not in a batch. Proved for batches in which every sample predicts a split in every layer."
  },
  {
   "property": "C92",
   "status": "proved",
   "theorems": [
    "Ocnn.C92_shapes",
    "Ocnn.C92_generates",
    "Ocnn.C92_view",
    "Ocnn.C92_wrong_batch",
    "Ocnn.C92_no_octree",
    "Ocnn.C92_teacher_forcing",
    "Ocnn.C92_perfect",
    "Ocnn.C92_independent"
   ],
   "note": "The image encoder is an arbitrary function; F.normalize and the negative log-likelihood are arbitrary functions."
  },
  {
   "property": "C93",
   "status": "proved",
   "theorems": [
    "Ocnn.C93_stride1",
    "Ocnn.C93_stride2",
    "Ocnn.C93_points"
   ],
   "note": "Both nempty flags for stride 1, nempty=True for stride 2; the two octrees may have different depths."
  },
  {
   "property": "C94",
   "status": "proved",
   "theorems": [
    "Ocnn.C94_resnet",
    "Ocnn.C94_hrnet",
    "Ocnn.C94_unet",
    "Ocnn.C94_segnet",
    "Ocnn.C94_classification",
    "Ocnn.C94_segmentation",
    "Ocnn.C94_training_resnet",
    "Ocnn.C94_training_hrnet",
    "Ocnn.C94_training_unet",
    "Ocnn.C94_training_classification",
    "Ocnn.C94_training_segmentation"
   ],
   "note": "Training mode: no batch normalisation over a single row (torch raises). SegNet (evaluation mode) needs nempty=False or no empty octants at the bottleneck (C78). LeNet is not translation invariant: its header flattens the voxel grid."
  },
  {
   "property": "C95",
   "status": "proved",
   "theorems": [
    "Ocnn.C95_segmentation",
    "Ocnn.C95_classification"
   ],
   "note": "Evaluation mode. SegNet needs nempty=False or no empty octants at the bottleneck (C78); LeNet needs depth = stages + 2 (C78)."
  },
  {
   "property": "C96",
   "status": "proved",
   "theorems": [
    "Ocnn.C96_counts",
    "Ocnn.C96_epoch",
    "Ocnn.C96_range",
    "Ocnn.C96_rebatched"
   ],
   "note": "Evaluation mode; exact arithmetic. The tracker of the external package thsolver is taken to average each entry over the batches; the loss is not modelled."
  },
  {
   "property": "C97",
   "status": "partial",
   "theorems": [
    "Ocnn.C97_partial",
    "Ocnn.C97_grid",
    "Ocnn.C97_violated",
    "Ocnn.f32_nearest",
    "Ocnn.f32_isF32"
   ],
   "note": "The property fails for the largest float32 number below 1, 1 - 2^-24: adding 1 rounds to 2 and the point wraps to the opposite face (C97_violated, every depth). Proved for all coordinates below it, and exactly for multiples of 2^-23. The rounding of the means over the points of a leaf is the subject of C161."
  },
  {
   "property": "C98",
   "status": "proved",
   "theorems": [
    "Ocnn.C98_classification",
    "Ocnn.C98_segmentation"
   ],
   "note": "The sums over the points of a leaf and over the rows of a batch normalization are exact here; float32 sums may differ in the last bits."
  },
  {
   "property": "C99",
   "status": "proved",
   "theorems": [
    "Ocnn.C99_label",
    "Ocnn.C99_instances",
    "Ocnn.C99_names",
    "Ocnn.C99_points",
    "Ocnn.C99_range",
    "Ocnn.C99_refused"
   ],
   "note": "Coordinates are exact; numpy stores the labels as floats."
  },
  {
   "property": "C100",
   "status": "partial",
   "theorems": [
    "Ocnn.C100_partial",
    "Ocnn.C100_violated"
   ],
   "note": "The property fails for directories whose name contains 'velodyne' or '.bin'."
  },
  {
   "property": "C101",
   "status": "proved",
   "theorems": [
    "Ocnn.C101_completion",
    "Ocnn.C101_all_kept",
    "Ocnn.C101_refused"
   ],
   "note": "Coordinates are exact; the program that uses the data cannot construct its network (C79)."
  },
  {
   "property": "C102",
   "status": "partial",
   "theorems": [
    "Ocnn.C102_partial",
    "Ocnn.C102_order",
    "Ocnn.C102_violated",
    "Ocnn.C102_dark"
   ],
   "note": "The property fails for clouds with a constant channel; colours are exact rationals or not-a-number."
  },
  {
   "property": "C103",
   "status": "proved",
   "theorems": [
    "Ocnn.C103_pass",
    "Ocnn.C103_elastic",
    "Ocnn.C103_empty"
   ],
   "note": "Coordinates are exact; the behaviour of scipy's convolve and RegularGridInterpolator is modelled from their documentation."
  },
  {
   "property": "C104",
   "status": "proved",
   "theorems": [
    "Ocnn.C104_scannet",
    "Ocnn.C104_range",
    "Ocnn.C104_empty"
   ],
   "note": "Coordinates are exact."
  },
  {
   "property": "C105",
   "status": "proved",
   "theorems": [
    "Ocnn.C105_normals",
    "Ocnn.C105_order",
    "Ocnn.C105_isolated",
    "Ocnn.C105_length",
    "Ocnn.C105_rigid",
    "Ocnn.C105_align"
   ],
   "note": "Coordinates are exact and the square root is any non-negative function, exact where the length is claimed; lines of the alignment file are given as parsed pairs."
  },
  {
   "property": "C106",
   "status": "proved",
   "theorems": [
    "Ocnn.C106_labels",
    "Ocnn.C106_mapped",
    "Ocnn.C106_order"
   ],
   "note": ""
  },
  {
   "property": "C107",
   "status": "partial",
   "theorems": [
    "Ocnn.C107_partial",
    "Ocnn.C107_regroup",
    "Ocnn.C107_range",
    "Ocnn.C107_absent",
    "Ocnn.C107_nan",
    "Ocnn.C107_errors",
    "Ocnn.C107_violated"
   ],
   "note": "The property fails if a class is absent, or a file has no labelled point. Sums are exact."
  },
  {
   "property": "C108",
   "status": "proved",
   "theorems": [
    "Ocnn.C108_ply",
    "Ocnn.C108_npz",
    "Ocnn.C108_file",
    "Ocnn.C108_points",
    "Ocnn.C108_missing"
   ],
   "note": "Files are the columns of the element, respectively the arrays, that the libraries write; the bytes on disk are not modelled."
  },
  {
   "property": "C109",
   "status": "proved",
   "theorems": [
    "Ocnn.C109_scene",
    "Ocnn.C109_assert"
   ],
   "note": "Arithmetic before rounding to single precision is exact."
  },
  {
   "property": "C110",
   "status": "proved",
   "theorems": [
    "Ocnn.C110_tables",
    "Ocnn.C110_file"
   ],
   "note": ""
  },
  {
   "property": "C111",
   "status": "partial",
   "theorems": [
    "Ocnn.C111_partial",
    "Ocnn.C111_violated"
   ],
   "note": "The property fails for names of shapes that contain the id of a category."
  },
  {
   "property": "C112",
   "status": "proved",
   "theorems": [
    "Ocnn.C112_labels",
    "Ocnn.C112_full",
    "Ocnn.C112_nested",
    "Ocnn.C112_order",
    "Ocnn.C112_classes"
   ],
   "note": ""
  },
  {
   "property": "C113",
   "status": "proved",
   "theorems": [
    "Ocnn.C113",
    "Ocnn.C113_disjoint",
    "Ocnn.C113_order"
   ],
   "note": ""
  },
  {
   "property": "C114",
   "status": "proved",
   "theorems": [
    "Ocnn.C114_listed",
    "Ocnn.C114_disjoint",
    "Ocnn.C114_share",
    "Ocnn.C114_order"
   ],
   "note": ""
  },
  {
   "property": "C115",
   "status": "proved",
   "theorems": [
    "Ocnn.C115_stride1",
    "Ocnn.C115_stride2"
   ],
   "note": ""
  },
  {
   "property": "C116",
   "status": "proved",
   "theorems": [
    "Ocnn.C116_stride1",
    "Ocnn.C116_stride2",
    "Ocnn.C116_full"
   ],
   "note": ""
  },
  {
   "property": "C117",
   "status": "proved",
   "theorems": [
    "Ocnn.C117_affine",
    "Ocnn.C117_full",
    "Ocnn.C117_range"
   ],
   "note": "Arithmetic is exact."
  },
  {
   "property": "C118",
   "status": "proved",
   "theorems": [
    "Ocnn.C118_receptive"
   ],
   "note": ""
  },
  {
   "property": "C119",
   "status": "proved",
   "theorems": [
    "Ocnn.C119_depth",
    "Ocnn.C119_full",
    "Ocnn.C119_more"
   ],
   "note": ""
  },
  {
   "property": "C120",
   "status": "proved",
   "theorems": [
    "Ocnn.C120_scatter_add",
    "Ocnn.C120_range"
   ],
   "note": ""
  },
  {
   "property": "C121",
   "status": "proved",
   "theorems": [
    "Ocnn.C121_xavier"
   ],
   "note": "The square root is an abstract function with its defining property; the distribution of the random numbers is not modelled, only the map from [0, 1)."
  },
  {
   "property": "C122",
   "status": "proved",
   "theorems": [
    "Ocnn.C122_npz",
    "Ocnn.C122_xyz",
    "Ocnn.C122_rejected"
   ],
   "note": "Rounding of numbers in the text format is an abstract function."
  },
  {
   "property": "C123",
   "status": "proved",
   "theorems": [
    "Ocnn.C123_example"
   ],
   "note": ""
  },
  {
   "property": "C124",
   "status": "proved",
   "theorems": [
    "Ocnn.C124_weights",
    "Ocnn.C124_product",
    "Ocnn.C124_file"
   ],
   "note": ""
  },
  {
   "property": "C125",
   "status": "partial",
   "theorems": [
    "Ocnn.C125_partial",
    "Ocnn.C125_violated"
   ],
   "note": "The bias of a 1x1 convolution inside a module called conv1x1 goes to another module than its weight."
  },
  {
   "property": "C126",
   "status": "proved",
   "theorems": [
    "Ocnn.C126_keep",
    "Ocnn.C126_small",
    "Ocnn.C126_solver"
   ],
   "note": ""
  },
  {
   "property": "C127",
   "status": "proved",
   "theorems": [
    "Ocnn.C127_list"
   ],
   "note": ""
  },
  {
   "property": "C128",
   "status": "proved",
   "theorems": [
    "Ocnn.C128_points",
    "Ocnn.C128_leaves"
   ],
   "note": ""
  },
  {
   "property": "C129",
   "status": "proved",
   "theorems": [
    "Ocnn.C129_flip"
   ],
   "note": "Points on a plane between two finest cells go to the upper cell before and after the flip, so they are excluded."
  },
  {
   "property": "C130",
   "status": "proved",
   "theorems": [
    "Ocnn.C130_levels",
    "Ocnn.C130_up_down",
    "Ocnn.C130_built"
   ],
   "note": ""
  },
  {
   "property": "C131",
   "status": "proved",
   "theorems": [
    "Ocnn.C131_stats"
   ],
   "note": "The square root is an abstract function with its defining property over any ordered field."
  },
  {
   "property": "C132",
   "status": "proved",
   "theorems": [
    "Ocnn.C132_ball",
    "Ocnn.C132_pose",
    "Ocnn.C132_align",
    "Ocnn.C132_box"
   ],
   "note": "The miniball package is an abstract function; that it finds the smallest ball is a hypothesis where it is used."
  },
  {
   "property": "C133",
   "status": "proved",
   "theorems": [
    "Ocnn.C133_clean",
    "Ocnn.C133_again"
   ],
   "note": ""
  },
  {
   "property": "C134",
   "status": "proved",
   "theorems": [
    "Ocnn.C134_modelnet",
    "Ocnn.C134_type"
   ],
   "note": "Sampling on the mesh and rounding to single precision are abstract functions."
  },
  {
   "property": "C135",
   "status": "proved",
   "theorems": [
    "Ocnn.C135_lists",
    "Ocnn.C135_files"
   ],
   "note": ""
  },
  {
   "property": "C136",
   "status": "proved",
   "theorems": [
    "Ocnn.C136_images",
    "Ocnn.C136_digits",
    "Ocnn.C136_points"
   ],
   "note": ""
  },
  {
   "property": "C137",
   "status": "proved",
   "theorems": [
    "Ocnn.C137_mean"
   ],
   "note": ""
  },
  {
   "property": "C138",
   "status": "proved",
   "theorems": [
    "Ocnn.C138_conv",
    "Ocnn.C138_deconv"
   ],
   "note": ""
  },
  {
   "property": "C139",
   "status": "proved",
   "theorems": [
    "Ocnn.C139_zoom"
   ],
   "note": ""
  },
  {
   "property": "C140",
   "status": "proved",
   "theorems": [
    "Ocnn.C140_loss",
    "Ocnn.C140_all_right",
    "Ocnn.C140_shift",
    "Ocnn.C140_labels"
   ],
   "note": "Over the real numbers, with the exponential function and logarithm of Mathlib."
  },
  {
   "property": "C141",
   "status": "proved",
   "theorems": [
    "Ocnn.C141_softmax",
    "Ocnn.C141_votes"
   ],
   "note": "Over the real numbers, with the exponential function of Mathlib."
  },
  {
   "property": "C142",
   "status": "proved",
   "theorems": [
    "Ocnn.C142_counts"
   ],
   "note": ""
  },
  {
   "property": "C143",
   "status": "proved",
   "theorems": [
    "Ocnn.C143_classification",
    "Ocnn.C143_segmentation"
   ],
   "note": ""
  },
  {
   "property": "C144",
   "status": "proved",
   "theorems": [
    "Ocnn.C144_classification",
    "Ocnn.C144_segmentation",
    "Ocnn.C144_shapenet"
   ],
   "note": "The default values of the external solver package are an assumption, stated with the model."
  },
  {
   "property": "C145",
   "status": "proved",
   "theorems": [
    "Ocnn.C145_devices"
   ],
   "note": ""
  },
  {
   "property": "C146",
   "status": "partial",
   "theorems": [
    "Ocnn.C146_partial",
    "Ocnn.C146_violated"
   ],
   "note": "Holds for tensors and for no batch index. An integer raises AttributeError, because the code calls long() on it."
  },
  {
   "property": "C147",
   "status": "partial",
   "theorems": [
    "Ocnn.C147_partial",
    "Ocnn.C147_violated"
   ],
   "note": "Holds for operations that can be called with two arguments. The convolutions of the package need the depth, which the wrapper does not pass (TypeError)."
  },
  {
   "property": "C148",
   "status": "proved",
   "theorems": [
    "Ocnn.C148_classification",
    "Ocnn.C148_segmentation"
   ],
   "note": ""
  },
  {
   "property": "C149",
   "status": "proved",
   "theorems": [
    "Ocnn.C149_labels",
    "Ocnn.C149_unseen",
    "Ocnn.C149_validate",
    "Ocnn.C149_right"
   ],
   "note": ""
  },
  {
   "property": "C150",
   "status": "proved",
   "theorems": [
    "Ocnn.C150_build",
    "Ocnn.C150_merge",
    "Ocnn.C150_decode",
    "Ocnn.C150_neigh",
    "Ocnn.C150_init",
    "Ocnn.C150_bound_child"
   ],
   "note": ""
  },
  {
   "property": "C151",
   "status": "proved",
   "theorems": [
    "Ocnn.C151_forward",
    "Ocnn.C151_methods",
    "Ocnn.C151_agree",
    "Ocnn.C151_gradients"
   ],
   "note": ""
  },
  {
   "property": "C152",
   "status": "partial",
   "theorems": [
    "Ocnn.C152_partial",
    "Ocnn.C152_violated"
   ],
   "note": "Holds for programs that do not change a list after passing it to a layer. The constructor extends the list of the caller in place, and a later change of the list changes the kernel of layers that do not use the direct method."
  },
  {
   "property": "C153",
   "status": "proved",
   "theorems": [
    "Ocnn.C153_translate",
    "Ocnn.C153_rotate",
    "Ocnn.C153_rotate_add",
    "Ocnn.C153_scale"
   ],
   "note": ""
  },
  {
   "property": "C154",
   "status": "partial",
   "theorems": [
    "Ocnn.C154_partial",
    "Ocnn.C154_violated"
   ],
   "note": "Holds for clouds without normals, and for clouds with normals unless all three axes are flipped: scaling by (-1, -1, -1) leaves the normals as they are, flipping negates them."
  },
  {
   "property": "C155",
   "status": "proved",
   "theorems": [
    "Ocnn.C155_points",
    "Ocnn.C155_input",
    "Ocnn.C155_resnet",
    "Ocnn.C155_hrnet",
    "Ocnn.C155_unet",
    "Ocnn.C155_classification",
    "Ocnn.C155_segmentation",
    "Ocnn.C155_decoder",
    "Ocnn.C155_autoencoder"
   ],
   "note": "SegNet (its unpooling follows positions of maxima, ties are not turned) and LeNet (its head lists the voxels in a fixed order) are left out. Exact arithmetic."
  },
  {
   "property": "C156",
   "status": "partial",
   "theorems": [
    "Ocnn.C156_partial",
    "Ocnn.C156_levels_partial",
    "Ocnn.C156_affine_partial",
    "Ocnn.C156_violated"
   ],
   "note": "Violated at the boundary of the cube: the layer never asks for the boundary check, so a node there also gets features of coarse nodes on the other side of the cube. Holds for all nodes that do not touch the boundary. Exact arithmetic, up to the 1e-12 added to the sum of weights."
  },
  {
   "property": "C157",
   "status": "proved",
   "theorems": [
    "Ocnn.C157_generation",
    "Ocnn.C157_autoencoder"
   ],
   "note": "Exact arithmetic. A layer without predicted nodes is excluded: octree_split then adds the first node (C91), which is not turned."
  },
  {
   "property": "C158",
   "status": "partial",
   "theorems": [
    "Ocnn.C158_violated",
    "Ocnn.C158_encoder_partial",
    "Ocnn.C158_forward_partial",
    "Ocnn.C158_skip_partial",
    "Ocnn.C158_generate_partial",
    "Ocnn.C158_teacher_forcing_partial",
    "Ocnn.C158_fixpoint_partial",
    "Ocnn.C158_batch_partial"
   ],
   "note": "Violated: besides the constructor (C79), the decoder is built for 64 channels at the full depth, but starts from the features of the encoder, which have 512, 256, 128, 32 or 16 channels there; forward raises for every full depth. The method get_input_feature that encoder calls does not exist either; the model takes the input feature as an argument. Everything else is proved for a decoder that starts with the channels of the encoder (hypothesis hcode), for inputs with an octant at every depth."
  },
  {
   "property": "C159",
   "status": "partial",
   "theorems": [
    "Ocnn.C159_violated",
    "Ocnn.C159_partial",
    "Ocnn.C159_any",
    "Ocnn.C159_periodic",
    "Ocnn.C159_inside",
    "Ocnn.C159_unique"
   ],
   "note": "Violated for every cloud with a point outside [-1, 1): building succeeds and counts the point in a node that does not contain it. C159_any says which one: coordinates from -1 on are taken modulo 2, coordinates below -1 in addition one cell further up, as the conversion to integers rounds towards zero. C159_periodic: clouds that agree modulo 2 have the same octree."
  },
  {
   "property": "C160",
   "status": "partial",
   "theorems": [
    "Ocnn.C160_violated",
    "Ocnn.C160_partial",
    "Ocnn.C160_translate",
    "Ocnn.C160_scale",
    "Ocnn.C160_bound",
    "Ocnn.C160_extent"
   ],
   "note": "Exact for translations. Violated for magnification: the 1e-6 added to the size of the box does not scale. C160_scale gives the exact factor, C160_bound how much it can move a coordinate."
  },
  {
   "property": "C161",
   "status": "partial",
   "theorems": [
    "Ocnn.C161_terms",
    "Ocnn.C161_partial",
    "Ocnn.C161_error",
    "Ocnn.C161_violated"
   ],
   "note": "The averages stay inside the node when (points in the node) * 2^depth <= 2^24; C161_violated: 257 equal points at depth 16 have an average outside their node."
  },
  {
   "property": "C162",
   "status": "proved",
   "theorems": [
    "Ocnn.C162_layers",
    "Ocnn.C162_single"
   ],
   "note": ""
  },
  {
   "property": "C163",
   "status": "partial",
   "theorems": [
    "Ocnn.C163_terms",
    "Ocnn.C163_partial",
    "Ocnn.C163_saturates",
    "Ocnn.C163_violated"
   ],
   "note": "Holds for samples with at most 2^p nodes. C163_saturates/C163_violated: with more nodes, ones added up row by row stop at 2^p, so that features with mean 1/2 are pooled to 1 (11 bits, full layer at depth 4)."
  },
  {
   "property": "C164",
   "status": "partial",
   "theorems": [
    "Ocnn.C164_bound",
    "Ocnn.C164_partial",
    "Ocnn.C164_violated_large",
    "Ocnn.C164_violated_far"
   ],
   "note": "Bound for all clouds; the claim holds with scale 1 when 9*extent + 2*offset <= 16, and with scale <= 0.99 when the cloud is not further from the origin than 2^16 times its extent. C164_violated_large: from extent 32 on the constant 1e-6 is lost, opposite corners are normalised onto the faces and stored in the same leaf; C164_violated_far: coordinates near 2^24 are normalised to 1.99."
  },
  {
   "property": "C165",
   "status": "proved",
   "theorems": [
    "Ocnn.C165_clip",
    "Ocnn.C165_margin"
   ],
   "note": "C165_margin: with margin 0 a point is kept and stored at the opposite corner."
  },
  {
   "property": "C166",
   "status": "proved",
   "theorems": [
    "Ocnn.C166_conv",
    "Ocnn.C166_deconv",
    "Ocnn.C166_modules",
    "Ocnn.C166_resblock",
    "Ocnn.C166_resblocks",
    "Ocnn.C166_classification",
    "Ocnn.C166_segmentation",
    "Ocnn.C166_skip",
    "Ocnn.C166_autoencoder"
   ],
   "note": "Tensors are references into a memory with version counters and a list of what autograd keeps (at least what torch keeps); the query points that OctreeInterp overwrites are the subject of another property and are values here."
  },
  {
   "property": "C167",
   "status": "partial",
   "theorems": [
    "Ocnn.C167_output",
    "Ocnn.C167_again",
    "Ocnn.C167_evaluation_partial",
    "Ocnn.C167_statistics",
    "Ocnn.C167_differ",
    "Ocnn.C167_violated",
    "Ocnn.C167_runs"
   ],
   "note": "Outputs, errors and the blocks run again agree; evaluation mode leaves the buffers alone. Violated in training mode: every batch normalization of a checkpointed block updates its buffers twice per step, so the effective momentum is 0.19 instead of 0.1 (C167_statistics gives both values exactly, C167_differ says when they agree)."
  },
  {
   "property": "C168",
   "status": "partial",
   "theorems": [
    "Ocnn.C168_partial",
    "Ocnn.C168_no_folder",
    "Ocnn.C168_default",
    "Ocnn.C168_violated"
   ],
   "note": "Violated: the preparation writes to data/scannet.ply by default, which the training reads, but validation, test and the list of train_all are read from data/scannet; so validation and test fail after the documented commands, and train_all fails whatever folder is chosen. What holds: with the data prepared in both folders every command finds its files, and checkpoint, prediction and label folders agree for every alias without a slash. The rule for the folder of a run belongs to the package thsolver and is taken as logdir_alias."
  },
  {
   "property": "C169",
   "status": "proved",
   "theorems": [
    "Ocnn.C169_unet",
    "Ocnn.C169_radius",
    "Ocnn.C169_crop"
   ],
   "note": "The radius is an upper bound obtained by adding up the kernels; that it cannot be smaller is not claimed."
  },
  {
   "property": "C170",
   "status": "proved",
   "theorems": [
    "Ocnn.C170_nodes",
    "Ocnn.C170_averages"
   ],
   "note": "Averages in exact arithmetic; normals are normalised sums and have no such rule."
  },
  {
   "property": "C171",
   "status": "proved",
   "theorems": [
    "Ocnn.C171_files",
    "Ocnn.C171_error",
    "Ocnn.C171_moved",
    "Ocnn.C171_shapes"
   ],
   "note": "The sampling of a mesh is a parameter; overflow of float16 is not modelled (the bounds need |x| <= 1)."
  },
  {
   "property": "C172",
   "status": "proved",
   "theorems": [
    "Ocnn.C172_same",
    "Ocnn.C172_determines",
    "Ocnn.C172_reduced"
   ],
   "note": "In exact arithmetic; C172_reduced asks that normalising a stored normal again does not change it."
  },
  {
   "property": "C173",
   "status": "partial",
   "theorems": [
    "Ocnn.C173_conv_partial",
    "Ocnn.C173_deconv_partial",
    "Ocnn.C173_interp_partial",
    "Ocnn.C173_pad_partial",
    "Ocnn.C173_align_partial",
    "Ocnn.C173_global_partial",
    "Ocnn.C173_violated",
    "Ocnn.C173_violated_direct",
    "Ocnn.C173_violated_avg",
    "Ocnn.C173_violated_max"
   ],
   "note": "Violated by the code: convolutions with direct_method=True and average pooling ignore additional rows silently, max pooling on all nodes accepts every tensor of eight rows and broadcasts its maximum. Proved for the layers of the default method, the interpolations, align, pad (except for a single row) and the global pooling (except when the layer has one row, where the index is broadcast)."
  },
  {
   "property": "C174",
   "status": "proved",
   "theorems": [
    "Ocnn.C174_error",
    "Ocnn.C174_range"
   ],
   "note": "The rounding of the coordinates, fractions and weights is modelled exactly (rounding to nearest), sums, products and quotients by error bounds that cover every order, fused multiply-add and underflow; overflow is not modelled."
  },
  {
   "property": "C175",
   "status": "partial",
   "theorems": [
    "Ocnn.C175_promote",
    "Ocnn.C175_keeps_partial",
    "Ocnn.C175_norm_partial",
    "Ocnn.C175_align_partial",
    "Ocnn.C175_avg_partial",
    "Ocnn.C175_linear_partial",
    "Ocnn.C175_upsample_partial",
    "Ocnn.C175_violated"
   ],
   "note": "Violated: torch.zeros without a type in search_value, and weights of the default type in average pooling and linear interpolation, reject features of other types. The partial theorems say exactly which types each operation accepts. The model keeps only the types of the tensors; the rules of torch that are assumed are listed in the module."
  },
  {
   "property": "C176",
   "status": "proved",
   "theorems": [
    "Ocnn.C176_function",
    "Ocnn.C176_layer",
    "Ocnn.C176_depthwise",
    "Ocnn.C176_direct",
    "Ocnn.C176_agree"
   ],
   "note": "The model keeps only the types of the tensors; the rules of torch and of autocast that are assumed are listed in the module DTypes."
  },
  {
   "property": "C177",
   "status": "proved",
   "theorems": [
    "Ocnn.C177_distort",
    "Ocnn.C177_plain",
    "Ocnn.C177_octree",
    "Ocnn.C177_pipeline"
   ],
   "note": "The model keeps only the types of the tensors; the rules of torch that are assumed are listed in the modules DTypes and PointTypes."
  },
  {
   "property": "C178",
   "status": "partial",
   "theorems": [
    "Ocnn.C178_partial",
    "Ocnn.C178_exact",
    "Ocnn.C178_error",
    "Ocnn.C178_violated"
   ],
   "note": "Violated for clouds of more than 2^24 points: torch.Tensor([p.npt for p in points]).long() rounds the sizes to 24 significant bits."
  },
  {
   "property": "C179",
   "status": "partial",
   "theorems": [
    "Ocnn.C179_neigh_partial",
    "Ocnn.C179_same_partial",
    "Ocnn.C179_to_partial",
    "Ocnn.C179_merge_partial",
    "Ocnn.C179_violated",
    "Ocnn.C179_violated_merge"
   ],
   "note": "Violated: Octree(depth).build_octree(points on a GPU) leaves the look-up tables on the CPU, so that construct_all_neigh raises; and merge_octrees compares device strings with device objects. The model keeps only the devices of the tensors; the rules of torch that are assumed are listed in the module."
  },
  {
   "property": "C180",
   "status": "proved",
   "theorems": [
    "Ocnn.C180_mean",
    "Ocnn.C180_few",
    "Ocnn.C180_interior"
   ],
   "note": "C46 is about exact arithmetic; here the weights are rounded as in the code and the sums are any admissible floating-point evaluation (FloatConv.Rounded). Overflow is not modelled."
  },
  {
   "property": "C181",
   "status": "partial",
   "theorems": [
    "Ocnn.C181_rate_partial",
    "Ocnn.C181_values_partial",
    "Ocnn.C181_layer",
    "Ocnn.C181_violated"
   ],
   "note": "Violated for drop probabilities below the resolution of the arithmetic: the sum of draw and keep probability can round to 2. C57 and C137 are about exact arithmetic."
  },
  {
   "property": "C182",
   "status": "proved",
   "theorems": [
    "Ocnn.C182_max",
    "Ocnn.C182_all",
    "Ocnn.C182_built",
    "Ocnn.C182_again",
    "Ocnn.C182_avg"
   ],
   "note": "the values of the result at every node, the pooling indices, the whole tensor for octrees built from points, and the idempotence of pooling"
  },
  {
   "property": "C183",
   "status": "partial",
   "theorems": [
    "Ocnn.C183_affine_partial",
    "Ocnn.C183_scale_partial",
    "Ocnn.C183_constant_partial",
    "Ocnn.C183_violated"
   ],
   "note": "the exact effect of factors and offsets is proved; the invariance itself is false because the mean is computed with n + eps in the denominator"
  },
  {
   "property": "C184",
   "status": "proved",
   "theorems": [
    "Ocnn.C184_stale",
    "Ocnn.C184_again",
    "Ocnn.C184_device",
    "Ocnn.C184_merged"
   ],
   "note": "With full_depth = 0 the table of the root is an input of the construction (see C28), so C184_stale then asks for the same root table."
  },
  {
   "property": "C185",
   "status": "proved",
   "theorems": [
    "Ocnn.ShapeScript.C185_own_log",
    "Ocnn.ShapeScript.C185_rows",
    "Ocnn.ShapeScript.C185_read",
    "Ocnn.ShapeScript.C185_schedule",
    "Ocnn.ShapeScript.C185_last_epoch",
    "Ocnn.ShapeScript.C185_means",
    "Ocnn.ShapeScript.C185_collision",
    "Ocnn.ShapeScript.C185_last_epoch_other"
   ],
   "note": "The schedule is in exact arithmetic.  C185_collision and C185_last_epoch_other show that the conditions on the ratios are needed: ratios that are printed alike share a log, and with 30 % of the data the last epoch of Bag is not tested.  The training program and the folder of its log are parameters (package thsolver)."
  },
  {
   "property": "C186",
   "status": "proved",
   "theorems": [
    "Ocnn.C186_parallel",
    "Ocnn.C186_embed",
    "Ocnn.C186_linear",
    "Ocnn.C186_identity"
   ],
   "note": "Exact arithmetic; the buffered method needs a buffer for one row (see C36)."
  },
  {
   "property": "C187",
   "status": "proved",
   "theorems": [
    "Ocnn.C187_segnet",
    "Ocnn.C187_crop",
    "Ocnn.C187_radius"
   ],
   "note": "The radius is an upper bound obtained by adding up the kernels; that it cannot be smaller is not claimed. With nempty=True SegNet raises on octrees with empty nodes at the depth of the bottleneck (C78)."
  },
  {
   "property": "C188",
   "status": "proved",
   "theorems": [
    "Ocnn.C188_mirror",
    "Ocnn.C188_upsample",
    "Ocnn.C188_pool"
   ],
   "note": ""
  },
  {
   "property": "C189",
   "status": "partial",
   "theorems": [
    "Ocnn.C189_fold_partial",
    "Ocnn.C189_strided",
    "Ocnn.C189_deconv",
    "Ocnn.C189_linear",
    "Ocnn.C189_violated"
   ],
   "note": "OctreeConv adds the bias before octree_pad fills the empty nodes with 0 (octree_conv.py 381-385), so for stride 2 and nempty=False the folded layer gives 0 at empty nodes where OctreeConvBn gives the constants of the normalisation (C189_violated; C189_strided states both outputs completely). Everywhere else folding is exact: C189_fold_partial for stride 1, nempty=True or a coarser layer without empty nodes, C189_deconv and C189_linear without restriction."
  },
  {
   "property": "C190",
   "status": "partial",
   "theorems": [
    "Ocnn.C190_bias_partial",
    "Ocnn.C190_shift",
    "Ocnn.C190_statistics",
    "Ocnn.C190_single",
    "Ocnn.C190_violated"
   ],
   "note": "For stride 2 and nempty=False the bias does change the normalised result when the coarser layer has empty nodes, because octree_pad fills them with 0 after the bias was added (C190_violated). C190_bias_partial covers stride 1, nempty=True and coarser layers without empty nodes. C190_statistics assumes an exact square root."
  },
  {
   "property": "C191",
   "status": "proved",
   "theorems": [
    "Ocnn.C191_after",
    "Ocnn.C191_before"
   ],
   "note": ""
  }
 ]
}