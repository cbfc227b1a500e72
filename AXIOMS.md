# Axioms of the property theorems


* `Ocnn.C01_key_roundtrip`: [propext, Classical.choice, Quot.sound] 
* `Ocnn.C01_key_roundtrip_nobatch`: [propext, Classical.choice, Quot.sound] 
* `Ocnn.C02_decode_encode`: [propext, Classical.choice, Quot.sound] 
* `Ocnn.C03_encode_is_morton`: [propext, Classical.choice, Quot.sound] 
* `Ocnn.C03_table_eq_loop`: [propext, Classical.choice, Quot.sound] 
* `Ocnn.C04_hierarchical`: [propext, Classical.choice, Quot.sound] 
* `Ocnn.C05_batch_major`: [propext, Classical.choice, Quot.sound] 
* `Ocnn.C05_depth_first`: [propext, Quot.sound] 
* `Ocnn.C05_encode_contiguous`: [propext, Classical.choice, Quot.sound] 
* `Ocnn.C05_encode_depth_first`: [propext, Classical.choice, Quot.sound] 
* `Ocnn.C05_subtree_contiguous`: [propext, Quot.sound] 
* `Ocnn.C06_batch_limit`: [propext, Classical.choice, Quot.sound] 
* `Ocnn.C06_coordinate_limit`: [propext, Classical.choice, Quot.sound] 
* `Ocnn.C06_depth_limit`: [propext, Classical.choice, Quot.sound] 
* `Ocnn.C07_build`: [propext, Classical.choice, Quot.sound] 
* `Ocnn.C08_leaf_index`: [propext, Classical.choice, Quot.sound] 
* `Ocnn.C09_invariants`: [propext, Classical.choice, Quot.sound] 
* `Ocnn.C100_partial`: [propext, Classical.choice, Quot.sound] 
* `Ocnn.C100_violated`: [propext, Classical.choice, Quot.sound] 
* `Ocnn.C101_all_kept`: [propext, Classical.choice, Quot.sound] 
* `Ocnn.C101_completion`: [propext, Classical.choice, Quot.sound] 
* `Ocnn.C101_refused`: [propext, Classical.choice, Quot.sound] 
* `Ocnn.C102_dark`: [propext, Classical.choice, Quot.sound] 
* `Ocnn.C102_order`: [propext, Classical.choice, Quot.sound] 
* `Ocnn.C102_partial`: [propext, Classical.choice, Quot.sound] 
* `Ocnn.C102_violated`: [propext, Classical.choice, Quot.sound] 
* `Ocnn.C103_elastic`: [propext, Classical.choice, Quot.sound] 
* `Ocnn.C103_empty`: [propext, Classical.choice, Quot.sound] 
* `Ocnn.C103_pass`: [propext, Classical.choice, Quot.sound] 
* `Ocnn.C104_empty`: [propext, Classical.choice, Quot.sound] 
* `Ocnn.C104_range`: [propext, Classical.choice, Quot.sound] 
* `Ocnn.C104_scannet`: [propext, Classical.choice, Quot.sound] 
* `Ocnn.C105_align`: [propext, Classical.choice, Quot.sound] 
* `Ocnn.C105_isolated`: [propext, Classical.choice, Quot.sound] 
* `Ocnn.C105_length`: [propext, Classical.choice, Quot.sound] 
* `Ocnn.C105_normals`: [propext, Classical.choice, Quot.sound] 
* `Ocnn.C105_order`: [propext, Classical.choice, Quot.sound] 
* `Ocnn.C105_rigid`: [propext, Classical.choice, Quot.sound] 
* `Ocnn.C106_labels`: [propext, Classical.choice, Quot.sound] 
* `Ocnn.C106_mapped`: [propext, Classical.choice, Quot.sound] 
* `Ocnn.C106_order`: [propext, Classical.choice, Quot.sound] 
* `Ocnn.C107_absent`: [propext, Classical.choice, Quot.sound] 
* `Ocnn.C107_errors`: [propext, Classical.choice, Quot.sound] 
* `Ocnn.C107_nan`: [propext, Classical.choice, Quot.sound] 
* `Ocnn.C107_partial`: [propext, Classical.choice, Quot.sound] 
* `Ocnn.C107_range`: [propext, Classical.choice, Quot.sound] 
* `Ocnn.C107_regroup`: [propext, Classical.choice, Quot.sound] 
* `Ocnn.C107_violated`: [propext, Classical.choice, Quot.sound] 
* `Ocnn.C108_file`: [propext, Classical.choice, Quot.sound] 
* `Ocnn.C108_missing`: [propext, Classical.choice, Quot.sound] 
* `Ocnn.C108_npz`: [propext, Classical.choice, Quot.sound] 
* `Ocnn.C108_ply`: [propext, Classical.choice, Quot.sound] 
* `Ocnn.C108_points`: [propext, Classical.choice, Quot.sound] 
* `Ocnn.C109_assert`: [propext, Classical.choice, Quot.sound] 
* `Ocnn.C109_scene`: [propext, Classical.choice, Quot.sound] 
* `Ocnn.C10_dense`: [propext, Classical.choice, Quot.sound] 
* `Ocnn.C110_file`: [propext, Classical.choice, Quot.sound] 
* `Ocnn.C110_tables`: [propext, Quot.sound] 
* `Ocnn.C111_partial`: [propext, Classical.choice, Quot.sound] 
* `Ocnn.C111_violated`: [propext, Classical.choice, Quot.sound] 
* `Ocnn.C112_classes`: [propext, Classical.choice, Quot.sound] 
* `Ocnn.C112_full`: [propext, Classical.choice, Quot.sound] 
* `Ocnn.C112_labels`: [propext, Classical.choice, Quot.sound] 
* `Ocnn.C112_nested`: [propext, Classical.choice, Quot.sound] 
* `Ocnn.C112_order`: [propext, Classical.choice, Quot.sound] 
* `Ocnn.C113`: [propext, Classical.choice, Quot.sound] 
* `Ocnn.C113_disjoint`: [propext, Classical.choice, Quot.sound] 
* `Ocnn.C113_order`: [propext, Classical.choice, Quot.sound] 
* `Ocnn.C114_disjoint`: [propext, Classical.choice, Quot.sound] 
* `Ocnn.C114_listed`: [propext, Classical.choice, Quot.sound] 
* `Ocnn.C114_order`: [propext, Classical.choice, Quot.sound] 
* `Ocnn.C114_share`: [propext, Classical.choice, Quot.sound] 
* `Ocnn.C115_stride1`: [propext, Classical.choice, Quot.sound] 
* `Ocnn.C115_stride2`: [propext, Classical.choice, Quot.sound] 
* `Ocnn.C116_full`: [propext, Classical.choice, Quot.sound] 
* `Ocnn.C116_stride1`: [propext, Classical.choice, Quot.sound] 
* `Ocnn.C116_stride2`: [propext, Classical.choice, Quot.sound] 
* `Ocnn.C117_affine`: [propext, Classical.choice, Quot.sound] 
* `Ocnn.C117_full`: [propext, Classical.choice, Quot.sound] 
* `Ocnn.C117_range`: [propext, Classical.choice, Quot.sound] 
* `Ocnn.C118_receptive`: [propext, Classical.choice, Quot.sound] 
* `Ocnn.C119_depth`: [propext, Classical.choice, Quot.sound] 
* `Ocnn.C119_full`: [propext, Classical.choice, Quot.sound] 
* `Ocnn.C119_more`: [propext, Classical.choice, Quot.sound] 
* `Ocnn.C11_averages`: [propext, Classical.choice, Quot.sound] 
* `Ocnn.C120_range`: [propext, Classical.choice, Quot.sound] 
* `Ocnn.C120_scatter_add`: [propext, Classical.choice, Quot.sound] 
* `Ocnn.C121_xavier`: [propext, Classical.choice, Quot.sound] 
* `Ocnn.C122_npz`: [propext, Classical.choice, Quot.sound] 
* `Ocnn.C122_rejected`: [propext, Classical.choice, Quot.sound] 
* `Ocnn.C122_xyz`: [propext, Classical.choice, Quot.sound] 
* `Ocnn.C123_example`: [propext, Classical.choice, Quot.sound] 
* `Ocnn.C124_file`: [propext, Classical.choice, Quot.sound] 
* `Ocnn.C124_product`: [propext, Classical.choice, Quot.sound] 
* `Ocnn.C124_weights`: [propext, Classical.choice, Quot.sound] 
* `Ocnn.C125_partial`: [propext, Classical.choice, Quot.sound] 
* `Ocnn.C125_violated`: [propext, Classical.choice, Quot.sound] 
* `Ocnn.C126_keep`: [propext, Classical.choice, Quot.sound] 
* `Ocnn.C126_small`: [propext, Classical.choice, Quot.sound] 
* `Ocnn.C126_solver`: [propext, Classical.choice, Quot.sound] 
* `Ocnn.C127_list`: [propext, Classical.choice, Quot.sound] 
* `Ocnn.C128_leaves`: [propext, Classical.choice, Quot.sound] 
* `Ocnn.C128_points`: [propext, Classical.choice, Quot.sound] 
* `Ocnn.C129_flip`: [propext, Classical.choice, Quot.sound] 
* `Ocnn.C12_inside`: [propext, Classical.choice, Quot.sound] 
* `Ocnn.C12_rebuild`: [propext, Classical.choice, Quot.sound] 
* `Ocnn.C130_built`: [propext, Classical.choice, Quot.sound] 
* `Ocnn.C130_levels`: [propext, Classical.choice, Quot.sound] 
* `Ocnn.C130_up_down`: [propext, Classical.choice, Quot.sound] 
* `Ocnn.C131_stats`: [propext, Classical.choice, Quot.sound] 
* `Ocnn.C132_align`: [propext, Quot.sound] 
* `Ocnn.C132_ball`: [propext, Classical.choice, Quot.sound] 
* `Ocnn.C132_box`: [propext, Classical.choice, Quot.sound] 
* `Ocnn.C132_pose`: [propext, Classical.choice, Quot.sound] 
* `Ocnn.C133_again`: [propext, Classical.choice, Quot.sound] 
* `Ocnn.C133_clean`: [propext, Classical.choice, Quot.sound] 
* `Ocnn.C134_modelnet`: [propext, Classical.choice, Quot.sound] 
* `Ocnn.C134_type`: [propext, Classical.choice, Quot.sound] 
* `Ocnn.C135_files`: [propext, Classical.choice, Quot.sound] 
* `Ocnn.C135_lists`: [propext, Classical.choice, Quot.sound] 
* `Ocnn.C136_digits`: [propext, Classical.choice, Quot.sound] 
* `Ocnn.C136_images`: [propext, Classical.choice, Quot.sound] 
* `Ocnn.C136_points`: [propext, Classical.choice, Quot.sound] 
* `Ocnn.C137_mean`: [propext, Classical.choice, Quot.sound] 
* `Ocnn.C138_conv`: [propext, Classical.choice, Quot.sound] 
* `Ocnn.C138_deconv`: [propext, Classical.choice, Quot.sound] 
* `Ocnn.C139_zoom`: [propext, Classical.choice, Quot.sound] 
* `Ocnn.C13_duplicates`: [propext, Classical.choice, Quot.sound] 
* `Ocnn.C13_order`: [propext, Classical.choice, Quot.sound] 
* `Ocnn.C140_all_right`: [propext, Classical.choice, Quot.sound] 
* `Ocnn.C140_labels`: [propext, Classical.choice, Quot.sound] 
* `Ocnn.C140_loss`: [propext, Classical.choice, Quot.sound] 
* `Ocnn.C140_shift`: [propext, Classical.choice, Quot.sound] 
* `Ocnn.C141_softmax`: [propext, Classical.choice, Quot.sound] 
* `Ocnn.C141_votes`: [propext, Classical.choice, Quot.sound] 
* `Ocnn.C142_counts`: [propext, Classical.choice, Quot.sound] 
* `Ocnn.C143_classification`: [propext, Classical.choice, Quot.sound] 
* `Ocnn.C143_segmentation`: [propext, Classical.choice, Quot.sound] 
* `Ocnn.C144_classification`: [propext, Classical.choice, Quot.sound] 
* `Ocnn.C144_segmentation`: [propext, Classical.choice, Quot.sound] 
* `Ocnn.C144_shapenet`: [propext, Classical.choice, Quot.sound] 
* `Ocnn.C145_devices`: [propext, Classical.choice, Quot.sound] 
* `Ocnn.C146_partial`: [propext, Classical.choice, Quot.sound] 
* `Ocnn.C146_violated`: [propext, Classical.choice, Quot.sound] 
* `Ocnn.C147_partial`: [propext, Quot.sound] 
* `Ocnn.C147_violated`: none 
* `Ocnn.C148_classification`: [propext, Classical.choice, Quot.sound] 
* `Ocnn.C148_segmentation`: [propext, Classical.choice, Quot.sound] 
* `Ocnn.C149_labels`: [propext, Classical.choice, Quot.sound] 
* `Ocnn.C149_right`: [propext, Classical.choice, Quot.sound] 
* `Ocnn.C149_unseen`: [propext, Classical.choice, Quot.sound] 
* `Ocnn.C149_validate`: [propext, Classical.choice, Quot.sound] 
* `Ocnn.C14_partial`: [propext, Classical.choice, Quot.sound] 
* `Ocnn.C14_violated`: [propext, Classical.choice, Quot.sound] 
* `Ocnn.C14_wraps`: [propext, Classical.choice, Quot.sound] 
* `Ocnn.C150_bound_child`: [propext] 
* `Ocnn.C150_build`: [propext, Classical.choice, Quot.sound] 
* `Ocnn.C150_decode`: [propext, Classical.choice, Quot.sound] 
* `Ocnn.C150_init`: [propext, Classical.choice, Quot.sound] 
* `Ocnn.C150_merge`: [propext, Classical.choice, Quot.sound] 
* `Ocnn.C150_neigh`: [propext, Classical.choice, Quot.sound] 
* `Ocnn.C151_agree`: [propext, Classical.choice, Quot.sound] 
* `Ocnn.C151_forward`: [propext, Classical.choice, Quot.sound] 
* `Ocnn.C151_gradients`: [propext, Classical.choice, Quot.sound] 
* `Ocnn.C151_methods`: [propext, Classical.choice, Quot.sound] 
* `Ocnn.C152_partial`: [propext, Classical.choice, Quot.sound] 
* `Ocnn.C152_violated`: [propext] 
* `Ocnn.C153_rotate`: [propext, Quot.sound] 
* `Ocnn.C153_rotate_add`: [propext, Quot.sound] 
* `Ocnn.C153_scale`: [propext, Classical.choice, Quot.sound] 
* `Ocnn.C153_translate`: [propext, Quot.sound] 
* `Ocnn.C154_partial`: [propext, Classical.choice, Quot.sound] 
* `Ocnn.C154_violated`: [propext, Classical.choice, Quot.sound] 
* `Ocnn.C155_autoencoder`: [propext, Classical.choice, Quot.sound] 
* `Ocnn.C155_classification`: [propext, Classical.choice, Quot.sound] 
* `Ocnn.C155_decoder`: [propext, Classical.choice, Quot.sound] 
* `Ocnn.C155_hrnet`: [propext, Classical.choice, Quot.sound] 
* `Ocnn.C155_input`: [propext, Classical.choice, Quot.sound] 
* `Ocnn.C155_points`: [propext, Classical.choice, Quot.sound] 
* `Ocnn.C155_resnet`: [propext, Classical.choice, Quot.sound] 
* `Ocnn.C155_segmentation`: [propext, Classical.choice, Quot.sound] 
* `Ocnn.C155_unet`: [propext, Classical.choice, Quot.sound] 
* `Ocnn.C156_affine_partial`: [propext, Classical.choice, Quot.sound] 
* `Ocnn.C156_levels_partial`: [propext, Classical.choice, Quot.sound] 
* `Ocnn.C156_partial`: [propext, Classical.choice, Quot.sound] 
* `Ocnn.C156_violated`: [propext, Classical.choice, Quot.sound] 
* `Ocnn.C157_autoencoder`: [propext, Classical.choice, Quot.sound] 
* `Ocnn.C157_generation`: [propext, Classical.choice, Quot.sound] 
* `Ocnn.C158_batch_partial`: [propext, Classical.choice, Quot.sound] 
* `Ocnn.C158_encoder_partial`: [propext, Classical.choice, Quot.sound] 
* `Ocnn.C158_fixpoint_partial`: [propext, Classical.choice, Quot.sound] 
* `Ocnn.C158_forward_partial`: [propext, Classical.choice, Quot.sound] 
* `Ocnn.C158_generate_partial`: [propext, Classical.choice, Quot.sound] 
* `Ocnn.C158_skip_partial`: [propext, Classical.choice, Quot.sound] 
* `Ocnn.C158_teacher_forcing_partial`: [propext, Classical.choice, Quot.sound] 
* `Ocnn.C158_violated`: [propext, Classical.choice, Quot.sound] 
* `Ocnn.C159_any`: [propext, Classical.choice, Quot.sound] 
* `Ocnn.C159_inside`: [propext, Classical.choice, Quot.sound] 
* `Ocnn.C159_partial`: [propext, Classical.choice, Quot.sound] 
* `Ocnn.C159_periodic`: [propext, Classical.choice, Quot.sound] 
* `Ocnn.C159_unique`: [propext, Classical.choice, Quot.sound] 
* `Ocnn.C159_violated`: [propext, Classical.choice, Quot.sound] 
* `Ocnn.C15_batch`: [propext, Classical.choice, Quot.sound] 
* `Ocnn.C160_bound`: [propext, Classical.choice, Quot.sound] 
* `Ocnn.C160_extent`: [propext, Classical.choice, Quot.sound] 
* `Ocnn.C160_partial`: [propext, Classical.choice, Quot.sound] 
* `Ocnn.C160_scale`: [propext, Classical.choice, Quot.sound] 
* `Ocnn.C160_translate`: [propext, Classical.choice, Quot.sound] 
* `Ocnn.C160_violated`: [propext, Classical.choice, Quot.sound] 
* `Ocnn.C161_error`: [propext, Classical.choice, Quot.sound] 
* `Ocnn.C161_partial`: [propext, Classical.choice, Quot.sound] 
* `Ocnn.C161_terms`: [propext, Classical.choice, Quot.sound] 
* `Ocnn.C161_violated`: [propext, Classical.choice, Quot.sound] 
* `Ocnn.C162_layers`: [propext, Classical.choice, Quot.sound] 
* `Ocnn.C162_single`: [propext, Classical.choice, Quot.sound] 
* `Ocnn.C163_partial`: [propext, Classical.choice, Quot.sound] 
* `Ocnn.C163_saturates`: [propext, Classical.choice, Quot.sound] 
* `Ocnn.C163_terms`: [propext, Classical.choice, Quot.sound] 
* `Ocnn.C163_violated`: [propext, Classical.choice, Quot.sound] 
* `Ocnn.C164_bound`: [propext, Classical.choice, Quot.sound] 
* `Ocnn.C164_partial`: [propext, Classical.choice, Quot.sound] 
* `Ocnn.C164_violated_far`: [propext, Classical.choice, Quot.sound] 
* `Ocnn.C164_violated_large`: [propext, Classical.choice, Quot.sound] 
* `Ocnn.C165_clip`: [propext, Classical.choice, Quot.sound] 
* `Ocnn.C165_margin`: [propext, Classical.choice, Quot.sound] 
* `Ocnn.C166_autoencoder`: [propext, Classical.choice, Quot.sound] 
* `Ocnn.C166_classification`: [propext, Classical.choice, Quot.sound] 
* `Ocnn.C166_conv`: [propext, Classical.choice, Quot.sound] 
* `Ocnn.C166_deconv`: [propext, Classical.choice, Quot.sound] 
* `Ocnn.C166_modules`: [propext, Classical.choice, Quot.sound] 
* `Ocnn.C166_resblock`: [propext, Classical.choice, Quot.sound] 
* `Ocnn.C166_resblocks`: [propext, Classical.choice, Quot.sound] 
* `Ocnn.C166_segmentation`: [propext, Classical.choice, Quot.sound] 
* `Ocnn.C166_skip`: [propext, Classical.choice, Quot.sound] 
* `Ocnn.C167_again`: [propext, Classical.choice, Quot.sound] 
* `Ocnn.C167_differ`: [propext, Classical.choice, Quot.sound] 
* `Ocnn.C167_evaluation_partial`: [propext, Classical.choice, Quot.sound] 
* `Ocnn.C167_output`: [propext, Classical.choice, Quot.sound] 
* `Ocnn.C167_runs`: [propext, Classical.choice, Quot.sound] 
* `Ocnn.C167_statistics`: [propext, Classical.choice, Quot.sound] 
* `Ocnn.C167_violated`: [propext, Classical.choice, Quot.sound] 
* `Ocnn.C168_default`: [propext, Classical.choice, Quot.sound] 
* `Ocnn.C168_no_folder`: [propext, Classical.choice, Quot.sound] 
* `Ocnn.C168_partial`: [propext, Classical.choice, Quot.sound] 
* `Ocnn.C168_violated`: [propext, Classical.choice, Quot.sound] 
* `Ocnn.C169_crop`: [propext, Classical.choice, Quot.sound] 
* `Ocnn.C169_radius`: [propext, Classical.choice, Quot.sound] 
* `Ocnn.C169_unet`: [propext, Classical.choice, Quot.sound] 
* `Ocnn.C16_merge`: [propext, Classical.choice, Quot.sound] 
* `Ocnn.C170_averages`: [propext, Classical.choice, Quot.sound] 
* `Ocnn.C170_nodes`: [propext, Classical.choice, Quot.sound] 
* `Ocnn.C171_error`: [propext, Classical.choice, Quot.sound] 
* `Ocnn.C171_files`: [propext, Classical.choice, Quot.sound] 
* `Ocnn.C171_moved`: [propext, Classical.choice, Quot.sound] 
* `Ocnn.C171_shapes`: [propext, Classical.choice, Quot.sound] 
* `Ocnn.C172_determines`: [propext, Classical.choice, Quot.sound] 
* `Ocnn.C172_reduced`: [propext, Classical.choice, Quot.sound] 
* `Ocnn.C172_same`: [propext, Classical.choice, Quot.sound] 
* `Ocnn.C173_align_partial`: [propext, Classical.choice, Quot.sound] 
* `Ocnn.C173_conv_partial`: [propext, Classical.choice, Quot.sound] 
* `Ocnn.C173_deconv_partial`: [propext, Classical.choice, Quot.sound] 
* `Ocnn.C173_global_partial`: [propext, Classical.choice, Quot.sound] 
* `Ocnn.C173_interp_partial`: [propext, Classical.choice, Quot.sound] 
* `Ocnn.C173_pad_partial`: [propext, Classical.choice, Quot.sound] 
* `Ocnn.C173_violated`: [propext, Classical.choice, Quot.sound] 
* `Ocnn.C173_violated_avg`: [propext, Quot.sound] 
* `Ocnn.C173_violated_direct`: [propext, Quot.sound] 
* `Ocnn.C173_violated_max`: [propext, Classical.choice, Quot.sound] 
* `Ocnn.C174_error`: [propext, Classical.choice, Quot.sound] 
* `Ocnn.C174_range`: [propext, Classical.choice, Quot.sound] 
* `Ocnn.C175_align_partial`: none 
* `Ocnn.C175_avg_partial`: none 
* `Ocnn.C175_keeps_partial`: [propext, Quot.sound] 
* `Ocnn.C175_linear_partial`: [propext] 
* `Ocnn.C175_norm_partial`: [propext] 
* `Ocnn.C175_promote`: [propext, Quot.sound] 
* `Ocnn.C175_upsample_partial`: [propext, Quot.sound] 
* `Ocnn.C175_violated`: [propext, Quot.sound] 
* `Ocnn.C176_agree`: [propext, Quot.sound] 
* `Ocnn.C176_depthwise`: [propext, Quot.sound] 
* `Ocnn.C176_direct`: [propext] 
* `Ocnn.C176_function`: [propext, Quot.sound] 
* `Ocnn.C176_layer`: [propext, Quot.sound] 
* `Ocnn.C177_distort`: [propext, Quot.sound] 
* `Ocnn.C177_octree`: [propext] 
* `Ocnn.C177_pipeline`: [propext, Quot.sound] 
* `Ocnn.C177_plain`: [propext] 
* `Ocnn.C178_error`: [propext, Classical.choice, Quot.sound] 
* `Ocnn.C178_exact`: [propext, Classical.choice, Quot.sound] 
* `Ocnn.C178_partial`: [propext, Classical.choice, Quot.sound] 
* `Ocnn.C178_violated`: [propext, Classical.choice, Quot.sound] 
* `Ocnn.C179_merge_partial`: [propext, Classical.choice, Quot.sound] 
* `Ocnn.C179_neigh_partial`: [propext, Quot.sound] 
* `Ocnn.C179_same_partial`: [propext, Classical.choice, Quot.sound] 
* `Ocnn.C179_to_partial`: [propext, Quot.sound] 
* `Ocnn.C179_violated`: [propext, Classical.choice, Quot.sound] 
* `Ocnn.C179_violated_merge`: [propext, Classical.choice, Quot.sound] 
* `Ocnn.C17_partial`: [propext, Classical.choice, Quot.sound] 
* `Ocnn.C17_violated`: [propext, Classical.choice, Quot.sound] 
* `Ocnn.C180_few`: [propext, Classical.choice, Quot.sound] 
* `Ocnn.C180_interior`: [propext, Classical.choice, Quot.sound] 
* `Ocnn.C180_mean`: [propext, Classical.choice, Quot.sound] 
* `Ocnn.C181_layer`: [propext, Classical.choice, Quot.sound] 
* `Ocnn.C181_rate_partial`: [propext, Classical.choice, Quot.sound] 
* `Ocnn.C181_values_partial`: [propext, Classical.choice, Quot.sound] 
* `Ocnn.C181_violated`: [propext, Classical.choice, Quot.sound] 
* `Ocnn.C182_again`: [propext, Classical.choice, Quot.sound] 
* `Ocnn.C182_all`: [propext, Classical.choice, Quot.sound] 
* `Ocnn.C182_avg`: [propext, Classical.choice, Quot.sound] 
* `Ocnn.C182_built`: [propext, Classical.choice, Quot.sound] 
* `Ocnn.C182_max`: [propext, Classical.choice, Quot.sound] 
* `Ocnn.C183_affine_partial`: [propext, Classical.choice, Quot.sound] 
* `Ocnn.C183_constant_partial`: [propext, Classical.choice, Quot.sound] 
* `Ocnn.C183_scale_partial`: [propext, Classical.choice, Quot.sound] 
* `Ocnn.C183_violated`: [propext, Classical.choice, Quot.sound] 
* `Ocnn.C184_again`: [propext, Classical.choice, Quot.sound] 
* `Ocnn.C184_device`: [propext, Quot.sound] 
* `Ocnn.C184_merged`: [propext, Classical.choice, Quot.sound] 
* `Ocnn.C184_stale`: [propext, Quot.sound] 
* `Ocnn.C186_embed`: [propext, Classical.choice, Quot.sound] 
* `Ocnn.C186_identity`: [propext, Classical.choice, Quot.sound] 
* `Ocnn.C186_linear`: [propext, Classical.choice, Quot.sound] 
* `Ocnn.C186_parallel`: [propext, Classical.choice, Quot.sound] 
* `Ocnn.C187_crop`: [propext, Classical.choice, Quot.sound] 
* `Ocnn.C187_radius`: [propext, Classical.choice, Quot.sound] 
* `Ocnn.C187_segnet`: [propext, Classical.choice, Quot.sound] 
* `Ocnn.C188_mirror`: [propext, Classical.choice, Quot.sound] 
* `Ocnn.C188_pool`: [propext, Classical.choice, Quot.sound] 
* `Ocnn.C188_upsample`: [propext, Classical.choice, Quot.sound] 
* `Ocnn.C189_deconv`: [propext, Classical.choice, Quot.sound] 
* `Ocnn.C189_fold_partial`: [propext, Classical.choice, Quot.sound] 
* `Ocnn.C189_linear`: [propext, Classical.choice, Quot.sound] 
* `Ocnn.C189_strided`: [propext, Classical.choice, Quot.sound] 
* `Ocnn.C189_violated`: [propext, Classical.choice, Quot.sound] 
* `Ocnn.C18_split`: [propext, Classical.choice, Quot.sound] 
* `Ocnn.C18_split_empty`: [propext] 
* `Ocnn.C190_bias_partial`: [propext, Classical.choice, Quot.sound] 
* `Ocnn.C190_shift`: [propext, Classical.choice, Quot.sound] 
* `Ocnn.C190_single`: [propext, Classical.choice, Quot.sound] 
* `Ocnn.C190_statistics`: [propext, Classical.choice, Quot.sound] 
* `Ocnn.C190_violated`: [propext, Classical.choice, Quot.sound] 
* `Ocnn.C191_after`: [propext, Classical.choice, Quot.sound] 
* `Ocnn.C191_before`: [propext, Classical.choice, Quot.sound] 
* `Ocnn.C19_decode`: [propext, Classical.choice, Quot.sound] 
* `Ocnn.C19_decode_logits`: [propext, Classical.choice, Quot.sound] 
* `Ocnn.C19_decode_prefix`: [propext, Classical.choice, Quot.sound] 
* `Ocnn.C20_replay`: [propext, Classical.choice, Quot.sound] 
* `Ocnn.C21_neigh_exact`: [propext, Classical.choice, Quot.sound] 
* `Ocnn.C21_neigh_step`: [propext, Classical.choice, Quot.sound] 
* `Ocnn.C22_symmetric`: [propext, Classical.choice, Quot.sound] 
* `Ocnn.C23_bad_kernel`: [propext, Quot.sound] 
* `Ocnn.C23_bad_stride`: [propext] 
* `Ocnn.C23_get_neigh_stride2`: [propext, Classical.choice, Quot.sound] 
* `Ocnn.C24_get_neigh_stride1`: [propext, Classical.choice, Quot.sound] 
* `Ocnn.C25_alias`: [propext, Classical.choice, Quot.sound] 
* `Ocnn.C25_get_neigh`: [propext, Classical.choice, Quot.sound] 
* `Ocnn.C25_history`: [propext, Classical.choice, Quot.sound] 
* `Ocnn.C25_merge`: [propext, Classical.choice, Quot.sound] 
* `Ocnn.C25_search_key`: [propext, Classical.choice, Quot.sound] 
* `Ocnn.C25_storable`: [propext, Quot.sound] 
* `Ocnn.C26_search_key`: [propext, Classical.choice, Quot.sound] 
* `Ocnn.C26_search_xyzb`: [propext, Classical.choice, Quot.sound] 
* `Ocnn.C27_xyzb`: [propext, Classical.choice, Quot.sound] 
* `Ocnn.C28_full_depth_zero_raises`: [propext, Classical.choice, Quot.sound] 
* `Ocnn.C28_partial`: [propext, Classical.choice, Quot.sound] 
* `Ocnn.C28_violated`: [propext, Classical.choice, Quot.sound] 
* `Ocnn.C29_partial`: [propext, Classical.choice, Quot.sound] 
* `Ocnn.C29_stale`: [propext, Classical.choice, Quot.sound] 
* `Ocnn.C29_violated`: [propext, Classical.choice, Quot.sound] 
* `Ocnn.C30_depad_pad`: [propext, Classical.choice, Quot.sound] 
* `Ocnn.C30_pad_depad`: [propext, Classical.choice, Quot.sound] 
* `Ocnn.C31_one_row`: [propext, Classical.choice, Quot.sound] 
* `Ocnn.C31_partial`: [propext, Classical.choice, Quot.sound] 
* `Ocnn.C31_violated`: [propext, Classical.choice, Quot.sound] 
* `Ocnn.C32_octree2col`: [propext, Classical.choice, Quot.sound] 
* `Ocnn.C33_adjoint`: [propext, Classical.choice, Quot.sound] 
* `Ocnn.C34_stride1`: [propext, Classical.choice, Quot.sound] 
* `Ocnn.C34_stride2`: [propext, Classical.choice, Quot.sound] 
* `Ocnn.C35_chunked_eq_direct`: [propext, Classical.choice, Quot.sound] 
* `Ocnn.C35_chunks`: [propext, Classical.choice, Quot.sound] 
* `Ocnn.C36_partial`: [propext, Classical.choice, Quot.sound] 
* `Ocnn.C36_small_buffer_raises`: [propext, Classical.choice, Quot.sound] 
* `Ocnn.C36_violated`: [propext, Classical.choice, Quot.sound] 
* `Ocnn.C37_bilinear`: [propext, Classical.choice, Quot.sound] 
* `Ocnn.C37_gradients`: [propext, Classical.choice, Quot.sound] 
* `Ocnn.C38_gradients`: [propext, Classical.choice, Quot.sound] 
* `Ocnn.C38_transpose`: [propext, Classical.choice, Quot.sound] 
* `Ocnn.C39_depthwise`: [propext, Classical.choice, Quot.sound] 
* `Ocnn.C39_module`: [propext, Classical.choice, Quot.sound] 
* `Ocnn.C40_group`: [propext, Classical.choice, Quot.sound] 
* `Ocnn.C40_init`: [propext, Quot.sound] 
* `Ocnn.C41_conv`: [propext, Classical.choice, Quot.sound] 
* `Ocnn.C41_deconv`: [propext, Classical.choice, Quot.sound] 
* `Ocnn.C42_max_pool`: [propext, Classical.choice, Quot.sound] 
* `Ocnn.C43_pool_again`: [propext, Classical.choice, Quot.sound] 
* `Ocnn.C43_unpool`: [propext, Classical.choice, Quot.sound] 
* `Ocnn.C44_built`: [propext, Classical.choice, Quot.sound] 
* `Ocnn.C44_partial`: [propext, Classical.choice, Quot.sound] 
* `Ocnn.C44_violated`: [propext, Classical.choice, Quot.sound] 
* `Ocnn.C45_height`: [propext, Classical.choice, Quot.sound] 
* `Ocnn.C45_partial`: [propext, Classical.choice, Quot.sound] 
* `Ocnn.C45_violated`: [propext, Classical.choice, Quot.sound] 
* `Ocnn.C46_avg_pool`: [propext, Classical.choice, Quot.sound] 
* `Ocnn.C46_bounds`: [propext, Classical.choice, Quot.sound] 
* `Ocnn.C47_global_pool`: [propext, Classical.choice, Quot.sound] 
* `Ocnn.C48_voxel`: [propext, Classical.choice, Quot.sound] 
* `Ocnn.C49_align`: [propext, Classical.choice, Quot.sound] 
* `Ocnn.C49_back`: [propext, Classical.choice, Quot.sound] 
* `Ocnn.C49_empty`: [propext, Classical.choice, Quot.sound] 
* `Ocnn.C49_search_value`: [propext, Classical.choice, Quot.sound] 
* `Ocnn.C49_self`: [propext, Classical.choice, Quot.sound] 
* `Ocnn.C49_via`: [propext, Classical.choice, Quot.sound] 
* `Ocnn.C50_nearest`: [propext, Classical.choice, Quot.sound] 
* `Ocnn.C51_bound_check`: [propext, Classical.choice, Quot.sound] 
* `Ocnn.C52_centres`: [propext, Classical.choice, Quot.sound] 
* `Ocnn.C52_nearest_upsample`: [propext, Classical.choice, Quot.sound] 
* `Ocnn.C52_repeated`: [propext, Classical.choice, Quot.sound] 
* `Ocnn.C52_upsample`: [propext, Classical.choice, Quot.sound] 
* `Ocnn.C53_centre`: [propext, Classical.choice, Quot.sound] 
* `Ocnn.C53_linear`: [propext, Classical.choice, Quot.sound] 
* `Ocnn.C53_none`: [propext, Classical.choice, Quot.sound] 
* `Ocnn.C53_weights`: [propext, Classical.choice, Quot.sound] 
* `Ocnn.C54_partial`: [propext, Classical.choice, Quot.sound] 
* `Ocnn.C54_support`: [propext, Classical.choice, Quot.sound] 
* `Ocnn.C54_violated`: [propext, Classical.choice, Quot.sound] 
* `Ocnn.C55_partial`: [propext, Classical.choice, Quot.sound] 
* `Ocnn.C55_rescaled`: [propext, Classical.choice, Quot.sound] 
* `Ocnn.C55_violated`: [propext, Classical.choice, Quot.sound] 
* `Ocnn.C56_alone`: [propext, Classical.choice, Quot.sound] 
* `Ocnn.C56_group_norm`: [propext, Classical.choice, Quot.sound] 
* `Ocnn.C56_init`: [propext, Quot.sound] 
* `Ocnn.C56_instance`: [propext, Classical.choice, Quot.sound] 
* `Ocnn.C57_drop`: [propext, Classical.choice, Quot.sound] 
* `Ocnn.C57_identity`: [propext, Classical.choice, Quot.sound] 
* `Ocnn.C58_avg_pool`: [propext, Classical.choice, Quot.sound] 
* `Ocnn.C58_conv`: [propext, Classical.choice, Quot.sound] 
* `Ocnn.C58_deconv`: [propext, Classical.choice, Quot.sound] 
* `Ocnn.C58_global_pool`: [propext, Classical.choice, Quot.sound] 
* `Ocnn.C58_group_norm`: [propext, Classical.choice, Quot.sound] 
* `Ocnn.C58_max_pool`: [propext, Classical.choice, Quot.sound] 
* `Ocnn.C58_networks`: [propext, Quot.sound] 
* `Ocnn.C58_pad_upsample`: [propext, Classical.choice, Quot.sound] 
* `Ocnn.C58_ready`: [propext, Classical.choice, Quot.sound] 
* `Ocnn.C58_sample`: [propext, Quot.sound] 
* `Ocnn.C59_clip`: [propext, Classical.choice, Quot.sound] 
* `Ocnn.C59_slice`: [propext, Classical.choice, Quot.sound] 
* `Ocnn.C59_slice_wrong_length`: [propext] 
* `Ocnn.C60_empty`: none 
* `Ocnn.C60_merge`: [propext, Quot.sound] 
* `Ocnn.C61_rotate`: [propext, Quot.sound] 
* `Ocnn.C62_flip`: [propext, Classical.choice, Quot.sound] 
* `Ocnn.C62_involution`: [propext, Classical.choice, Quot.sound] 
* `Ocnn.C62_order`: [propext, Classical.choice, Quot.sound] 
* `Ocnn.C62_unknown`: [propext, Classical.choice, Quot.sound] 
* `Ocnn.C63_ones`: [propext, Quot.sound] 
* `Ocnn.C63_scale`: [propext, Classical.choice, Quot.sound] 
* `Ocnn.C63_unit`: [propext, Classical.choice, Quot.sound] 
* `Ocnn.C63_zero`: [propext, Quot.sound] 
* `Ocnn.C64_bbox`: [propext] 
* `Ocnn.C64_bbox_empty`: [propext] 
* `Ocnn.C64_normalize`: [propext, Classical.choice, Quot.sound] 
* `Ocnn.C65_no_normals`: [propext, Quot.sound] 
* `Ocnn.C65_orient`: [propext, Classical.choice, Quot.sound] 
* `Ocnn.C65_orient_xyz`: [propext, Quot.sound] 
* `Ocnn.C66_partial`: [propext, Classical.choice, Quot.sound] 
* `Ocnn.C66_violated`: [propext, Classical.choice, Quot.sound] 
* `Ocnn.C67_checks`: [propext, Quot.sound] 
* `Ocnn.C67_columns`: [propext, Quot.sound] 
* `Ocnn.C67_partial`: [propext, Quot.sound] 
* `Ocnn.C67_violated`: none 
* `Ocnn.C68_centres_partial`: [propext, Classical.choice, Quot.sound] 
* `Ocnn.C68_partial`: [propext, Classical.choice, Quot.sound] 
* `Ocnn.C68_violated`: [propext, Classical.choice, Quot.sound] 
* `Ocnn.C69_partial`: [propext] 
* `Ocnn.C69_violated`: [propext, Classical.choice, Quot.sound] 
* `Ocnn.C70_queries`: [propext, Quot.sound] 
* `Ocnn.C70_to`: none 
* `Ocnn.C70_valid`: [propext, Classical.choice, Quot.sound] 
* `Ocnn.C71_parameters`: [propext, Classical.choice, Quot.sound] 
* `Ocnn.C71_transform`: [propext, Classical.choice, Quot.sound] 
* `Ocnn.C72_collate`: [propext, Classical.choice, Quot.sound] 
* `Ocnn.C72_empty`: [propext, Classical.choice, Quot.sound] 
* `Ocnn.C72_label_lost`: [propext, Classical.choice, Quot.sound] 
* `Ocnn.C72_missing`: [propext, Classical.choice, Quot.sound] 
* `Ocnn.C73_input_feature`: [propext, Classical.choice, Quot.sound] 
* `Ocnn.C73_no_letter`: [propext, Classical.choice, Quot.sound] 
* `Ocnn.C74_bad_index`: [propext, Classical.choice, Quot.sound] 
* `Ocnn.C74_bad_length`: [propext] 
* `Ocnn.C74_broadcast`: [propext, Classical.choice, Quot.sound] 
* `Ocnn.C74_negative_index`: [propext, Classical.choice, Quot.sound] 
* `Ocnn.C74_order`: [propext, Classical.choice, Quot.sound] 
* `Ocnn.C74_scatter_add`: [propext, Classical.choice, Quot.sound] 
* `Ocnn.C74_total`: [propext, Classical.choice, Quot.sound] 
* `Ocnn.C75_exclusive`: [propext, Classical.choice, Quot.sound] 
* `Ocnn.C75_inclusive`: [propext, Classical.choice, Quot.sound] 
* `Ocnn.C76_kernel_name`: [propext] 
* `Ocnn.C76_names`: [propext, Classical.choice, Quot.sound] 
* `Ocnn.C76_resize`: [propext, Quot.sound] 
* `Ocnn.C76_resize_raises`: [propext, Quot.sound] 
* `Ocnn.C77_autoencoder`: [propext, Classical.choice, Quot.sound] 
* `Ocnn.C77_autoencoder_update`: [propext, Classical.choice, Quot.sound] 
* `Ocnn.C77_decode_code`: [propext, Classical.choice, Quot.sound] 
* `Ocnn.C77_hrnet`: [propext, Classical.choice, Quot.sound] 
* `Ocnn.C77_lenet`: [propext, Classical.choice, Quot.sound] 
* `Ocnn.C77_lenet_depth`: [propext, Classical.choice, Quot.sound] 
* `Ocnn.C77_resnet`: [propext, Classical.choice, Quot.sound] 
* `Ocnn.C77_unet`: [propext, Classical.choice, Quot.sound] 
* `Ocnn.C78_partial`: [propext, Classical.choice, Quot.sound] 
* `Ocnn.C78_raises`: [propext, Classical.choice, Quot.sound] 
* `Ocnn.C78_violated`: [propext, Classical.choice, Quot.sound] 
* `Ocnn.C79_autoencoder_partial`: none 
* `Ocnn.C79_ounet_violated`: none 
* `Ocnn.C79_resblock`: [propext, Classical.choice, Quot.sound] 
* `Ocnn.C79_resblock2_partial`: [propext, Classical.choice, Quot.sound] 
* `Ocnn.C79_resblock2_violated`: [propext, Classical.choice, Quot.sound] 
* `Ocnn.C80_aggregate`: [propext, Classical.choice, Quot.sound] 
* `Ocnn.C80_filtered`: [propext, Quot.sound] 
* `Ocnn.C81_accuracy`: [propext, Classical.choice, Quot.sound] 
* `Ocnn.C81_iou`: [propext, Classical.choice, Quot.sound] 
* `Ocnn.C82_cover_partial`: [propext, Classical.choice, Quot.sound] 
* `Ocnn.C82_dropped`: [propext, Classical.choice, Quot.sound] 
* `Ocnn.C82_small`: [propext, Classical.choice, Quot.sound] 
* `Ocnn.C82_violated`: [propext, Classical.choice, Quot.sound] 
* `Ocnn.C83_merge_partial`: [propext, Classical.choice, Quot.sound] 
* `Ocnn.C83_violated`: [propext, Classical.choice, Quot.sound] 
* `Ocnn.C84_deconv`: [propext, Classical.choice, Quot.sound] 
* `Ocnn.C85_labels`: [propext, Classical.choice, Quot.sound] 
* `Ocnn.C86_autoencoder`: [propext, Classical.choice, Quot.sound] 
* `Ocnn.C86_hrnet`: [propext, Classical.choice, Quot.sound] 
* `Ocnn.C86_lenet`: [propext, Classical.choice, Quot.sound] 
* `Ocnn.C86_resnet`: [propext, Classical.choice, Quot.sound] 
* `Ocnn.C86_segnet`: [propext, Classical.choice, Quot.sound] 
* `Ocnn.C86_unet`: [propext, Classical.choice, Quot.sound] 
* `Ocnn.C87_decoder`: [propext, Classical.choice, Quot.sound] 
* `Ocnn.C87_fixpoint`: [propext, Classical.choice, Quot.sound] 
* `Ocnn.C87_predicts_generated`: [propext, Classical.choice, Quot.sound] 
* `Ocnn.C87_teacher_forcing`: [propext, Classical.choice, Quot.sound] 
* `Ocnn.C88_epochs_partial`: [propext, Classical.choice, Quot.sound] 
* `Ocnn.C88_flipped`: [propext, Classical.choice, Quot.sound] 
* `Ocnn.C88_methods`: [propext, Classical.choice, Quot.sound] 
* `Ocnn.C88_prepare`: [propext, Classical.choice, Quot.sound] 
* `Ocnn.C88_violated`: [propext, Classical.choice, Quot.sound] 
* `Ocnn.C89_eval`: [propext, Classical.choice, Quot.sound] 
* `Ocnn.C89_mismatch`: [propext, Classical.choice, Quot.sound] 
* `Ocnn.C89_octree2pts`: [propext, Classical.choice, Quot.sound] 
* `Ocnn.C89_tangent`: [propext, Classical.choice, Quot.sound] 
* `Ocnn.C90_loss`: [propext, Classical.choice, Quot.sound] 
* `Ocnn.C90_perfect`: [propext, Classical.choice, Quot.sound] 
* `Ocnn.C90_small_loss`: [propext, Classical.choice, Quot.sound] 
* `Ocnn.C90_small_total`: [propext, Classical.choice, Quot.sound] 
* `Ocnn.C90_total`: [propext, Classical.choice, Quot.sound] 
* `Ocnn.C91_decode_batch_partial`: [propext, Classical.choice, Quot.sound] 
* `Ocnn.C91_decode_batch_violated`: [propext, Classical.choice, Quot.sound] 
* `Ocnn.C92_generates`: [propext, Classical.choice, Quot.sound] 
* `Ocnn.C92_generates_batch_partial`: [propext, Classical.choice, Quot.sound] 
* `Ocnn.C92_independent`: [propext, Classical.choice, Quot.sound] 
* `Ocnn.C92_no_octree`: [propext, Classical.choice, Quot.sound] 
* `Ocnn.C92_perfect`: [propext, Classical.choice, Quot.sound] 
* `Ocnn.C92_shapes`: [propext, Classical.choice, Quot.sound] 
* `Ocnn.C92_teacher_forcing`: [propext, Classical.choice, Quot.sound] 
* `Ocnn.C92_view`: [propext, Classical.choice, Quot.sound] 
* `Ocnn.C92_wrong_batch`: [propext, Classical.choice, Quot.sound] 
* `Ocnn.C93_points`: [propext, Classical.choice, Quot.sound] 
* `Ocnn.C93_stride1`: [propext, Classical.choice, Quot.sound] 
* `Ocnn.C93_stride2`: [propext, Classical.choice, Quot.sound] 
* `Ocnn.C94_classification`: [propext, Classical.choice, Quot.sound] 
* `Ocnn.C94_hrnet`: [propext, Classical.choice, Quot.sound] 
* `Ocnn.C94_resnet`: [propext, Classical.choice, Quot.sound] 
* `Ocnn.C94_segmentation`: [propext, Classical.choice, Quot.sound] 
* `Ocnn.C94_segnet`: [propext, Classical.choice, Quot.sound] 
* `Ocnn.C94_training_classification`: [propext, Classical.choice, Quot.sound] 
* `Ocnn.C94_training_hrnet`: [propext, Classical.choice, Quot.sound] 
* `Ocnn.C94_training_resnet`: [propext, Classical.choice, Quot.sound] 
* `Ocnn.C94_training_segmentation`: [propext, Classical.choice, Quot.sound] 
* `Ocnn.C94_training_unet`: [propext, Classical.choice, Quot.sound] 
* `Ocnn.C94_unet`: [propext, Classical.choice, Quot.sound] 
* `Ocnn.C95_classification`: [propext, Classical.choice, Quot.sound] 
* `Ocnn.C95_segmentation`: [propext, Classical.choice, Quot.sound] 
* `Ocnn.C96_counts`: [propext, Classical.choice, Quot.sound] 
* `Ocnn.C96_epoch`: [propext, Classical.choice, Quot.sound] 
* `Ocnn.C96_range`: [propext, Classical.choice, Quot.sound] 
* `Ocnn.C96_rebatched`: [propext, Classical.choice, Quot.sound] 
* `Ocnn.C97_grid`: [propext, Classical.choice, Quot.sound] 
* `Ocnn.C97_partial`: [propext, Classical.choice, Quot.sound] 
* `Ocnn.C97_violated`: [propext, Classical.choice, Quot.sound] 
* `Ocnn.C98_classification`: [propext, Classical.choice, Quot.sound] 
* `Ocnn.C98_segmentation`: [propext, Classical.choice, Quot.sound] 
* `Ocnn.C99_instances`: [propext, Classical.choice, Quot.sound] 
* `Ocnn.C99_label`: [propext, Classical.choice, Quot.sound] 
* `Ocnn.C99_names`: [propext, Quot.sound] 
* `Ocnn.C99_points`: [propext, Classical.choice, Quot.sound] 
* `Ocnn.C99_range`: [propext, Classical.choice, Quot.sound] 
* `Ocnn.C99_refused`: [propext, Classical.choice, Quot.sound] 
* `Ocnn.ShapeScript.C185_collision`: [propext, Classical.choice, Quot.sound] 
* `Ocnn.ShapeScript.C185_last_epoch`: [propext, Classical.choice, Quot.sound] 
* `Ocnn.ShapeScript.C185_last_epoch_other`: [propext, Classical.choice, Quot.sound] 
* `Ocnn.ShapeScript.C185_means`: [propext, Classical.choice, Quot.sound] 
* `Ocnn.ShapeScript.C185_own_log`: [propext, Classical.choice, Quot.sound] 
* `Ocnn.ShapeScript.C185_read`: [propext, Classical.choice, Quot.sound] 
* `Ocnn.ShapeScript.C185_rows`: [propext, Classical.choice, Quot.sound] 
* `Ocnn.ShapeScript.C185_schedule`: [propext, Classical.choice, Quot.sound] 
* `Ocnn.f32_isF32`: [propext, Classical.choice, Quot.sound] 
* `Ocnn.f32_nearest`: [propext, Classical.choice, Quot.sound] 
* `Ocnn.unetConfig_ok`: [propext] 
