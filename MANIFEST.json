{
 "claims": [
  {
   "property": "C01",
   "status": "proved",
   "theorems": [
    "PC.C01_padded_roundtrip",
    "PC.C01_unpadded_roundtrip"
   ],
   "note": "For every call history after construction and every max_num_points argument."
  },
  {
   "property": "C02",
   "status": "proved",
   "theorems": [
    "PC.C02_get_points_id",
    "PC.C02_partition"
   ],
   "note": ""
  },
  {
   "property": "C03",
   "status": "partial",
   "theorems": [
    "PC.C03_index_error_false",
    "PC.C03_index_error_partial"
   ],
   "note": "The claim is false: the code tests id > batch_size only (C03_index_error_false); proved: which ids raise, and that the others yield no points."
  },
  {
   "property": "C04",
   "status": "partial",
   "theorems": [
    "PC.C04_sizes_false",
    "PC.C04_sizes_partial",
    "PC.C04_sizes_noEmpty"
   ],
   "note": "False with empty batch elements (C04_sizes_false); proved without empty elements for every call history, and exact description in general."
  },
  {
   "property": "C05",
   "status": "proved",
   "theorems": [
    "PC.C05_sizes_sum"
   ],
   "note": ""
  },
  {
   "property": "C06",
   "status": "partial",
   "theorems": [
    "PC.C06_padded_view_partial",
    "PC.C06_padded_view_false"
   ],
   "note": "False with empty batch elements (C06_padded_view_false); proved without, for histories that do not pass max_num_points."
  },
  {
   "property": "C07",
   "status": "partial",
   "theorems": [
    "PC.C07_max_num_points_false",
    "PC.C07_max_num_points_partial"
   ],
   "note": "False: the first call fixes the limit (C07_max_num_points_false); proved when no earlier padded request was made."
  },
  {
   "property": "C08",
   "status": "partial",
   "theorems": [
    "PC.C08_accepts_iff_partial",
    "PC.C08_rejected_unchanged",
    "PC.C08_content_unchanged",
    "PC.C08_tuple_row_major",
    "PC.C08_tuple_outside",
    "PC.C08_accepts_false"
   ],
   "note": "Acceptance needs no empty element (C08_accepts_false otherwise); the remaining parts are proved in full."
  },
  {
   "property": "C09",
   "status": "proved",
   "theorems": [
    "PC.C09_validation",
    "PC.C09_error_kind",
    "PC.C09_batch_size"
   ],
   "note": ""
  },
  {
   "property": "C10",
   "status": "proved",
   "theorems": [
    "PC.C10_feature_roundtrip",
    "PC.C10_feature_roundtrip_padded",
    "PC.C10_return_sorted",
    "PC.C10_plain"
   ],
   "note": ""
  },
  {
   "property": "C11",
   "status": "proved",
   "theorems": [
    "PC.C11_box_contains_and_tight",
    "PC.C11_box_contains_eps0"
   ],
   "note": "Exact arithmetic with eps > 0; also containment when float32 absorbs eps (eps = 0)."
  },
  {
   "property": "C12",
   "status": "proved",
   "theorems": [
    "PC.C12_diameter_dominates"
   ],
   "note": ""
  },
  {
   "property": "C13",
   "status": "partial",
   "theorems": [
    "PC.C13_keys_identify",
    "PC.C13_key_formula",
    "PC.C13_keys_eps0_false",
    "PC.C13_same_cell_same_key_partial"
   ],
   "note": "Proved in full for eps > 0 (exact arithmetic); false when float32 rounding absorbs the 1e-9 margin (C13_keys_eps0_false), where only same cell -> same key remains."
  },
  {
   "property": "C14",
   "status": "proved",
   "theorems": [
    "PC.C14_sorted_is_permutation",
    "PC.C14_sorted_order",
    "PC.C14_batch_contiguous"
   ],
   "note": ""
  },
  {
   "property": "C15",
   "status": "partial",
   "theorems": [
    "PC.C15_access_structure_exact",
    "PC.C15_access_structure_eps0_false"
   ],
   "note": "Proved in full for eps > 0 on both devices; false when float32 rounding absorbs the margin (C15_access_structure_eps0_false)."
  },
  {
   "property": "C16",
   "status": "proved",
   "theorems": [
    "PC.C16_search_sound"
   ],
   "note": ""
  },
  {
   "property": "C17",
   "status": "partial",
   "theorems": [
    "PC.C17_search_complete",
    "PC.C17_gpu_exact",
    "PC.C17_cpu_raises",
    "PC.C17_cpu_self_search_false",
    "PC.C17_cpu_self_never_returns",
    "PC.C17_cpu_self_never_returns_eps0"
   ],
   "note": "Complete whenever the search returns; always returns (and is exact) on the GPU. On the CPU it raises as soon as a centre is in the last row/column of cells (C17_cpu_raises), so the self search does not return (C17_cpu_self_*)."
  },
  {
   "property": "C18",
   "status": "partial",
   "theorems": [
    "PC.C18_smaller_radius_false",
    "PC.C18_other_dims_partial"
   ],
   "note": "False (C18_smaller_radius_false). Proved: exact when only the first two cell sizes agree with the radii, other dimensions arbitrary."
  },
  {
   "property": "C19",
   "status": "proved",
   "theorems": [
    "PC.C19_ranges_partition"
   ],
   "note": ""
  },
  {
   "property": "C20",
   "status": "proved",
   "theorems": [
    "PC.C20_original_ids",
    "PC.C20_compute_neighborhoods"
   ],
   "note": ""
  },
  {
   "property": "C21",
   "status": "proved",
   "theorems": [
    "PC.C21_brute_force_exact"
   ],
   "note": ""
  },
  {
   "property": "C22",
   "status": "partial",
   "theorems": [
    "PC.C22_ranges_false",
    "PC.C22_ranges_partial"
   ],
   "note": "False for centres without neighbours (C22_ranges_false); proved otherwise, plus the exact description in general."
  },
  {
   "property": "C23",
   "status": "partial",
   "theorems": [
    "PC.C23_transpose",
    "PC.C23_transposed_by_index",
    "PC.C23_transposed_ranges",
    "PC.C23_self",
    "PC.C23_self_original_ids_false"
   ],
   "note": "All parts proved on the pairs in grid order / between two clouds; the original ids of a self neighbourhood mix two index spaces and are not symmetric (C23_self_original_ids_false)."
  },
  {
   "property": "C24",
   "status": "partial",
   "theorems": [
    "PC.C24_poisson_terminates",
    "PC.C24_poisson_eps0_false"
   ],
   "note": "Proved for eps > 0 and every sequence of random choices; when float32 absorbs the margin the loop can run for ever (C24_poisson_eps0_false)."
  },
  {
   "property": "C25",
   "status": "proved",
   "theorems": [
    "PC.C25_poisson_separated"
   ],
   "note": ""
  },
  {
   "property": "C26",
   "status": "proved",
   "theorems": [
    "PC.C26_poisson_covers",
    "PC.C26_poisson_nonempty"
   ],
   "note": ""
  },
  {
   "property": "C27",
   "status": "proved",
   "theorems": [
    "PC.C27_sample_ids"
   ],
   "note": ""
  },
  {
   "property": "C28",
   "status": "partial",
   "theorems": [
    "PC.C28_helpers_false",
    "PC.C28_sample_modes_partial"
   ],
   "note": "False (C28_helpers_false): the helpers pass swapped modes and reject scalars; proved for sample()."
  },
  {
   "property": "C29",
   "status": "partial",
   "theorems": [
    "PC.C29_cell_average",
    "PC.C29_cell_average_eps0_false"
   ],
   "note": "Proved in full for eps > 0; when float32 absorbs the margin batch elements are mixed (C29_cell_average_eps0_false)."
  },
  {
   "property": "C30",
   "status": "proved",
   "theorems": [
    "PC.C30_mass_and_location",
    "PC.C30_cell_average"
   ],
   "note": ""
  },
  {
   "property": "C31",
   "status": "proved",
   "theorems": [
    "PC.C31_hierarchy_well_formed",
    "PC.C31_any_two_levels",
    "PC.C31_constructor_succeeds"
   ],
   "note": "For eps > 0 and positive cell sizes, all random choices; the GPU constructor is shown to succeed."
  },
  {
   "property": "C32",
   "status": "partial",
   "theorems": [
    "PC.C32_completion_false",
    "PC.C32_completion_partial"
   ],
   "note": "False: the first value is repeated (C32_completion_false); exact behaviour proved."
  },
  {
   "property": "C33",
   "status": "partial",
   "theorems": [
    "PC.C33_density_positive",
    "PC.C33_pdf_entries_positive",
    "PC.C33_gauss",
    "PC.C33_eps0_false"
   ],
   "note": "Proved in full for eps > 0, any positive kernel, radii and bandwidths (C33_gauss: the Gaussian), for self neighbourhoods and neighbourhoods between clouds; false when float32 absorbs the margin (C33_eps0_false)."
  },
  {
   "property": "C34",
   "status": "proved",
   "theorems": [
    "PC.C34_density_formula",
    "PC.C34_translation",
    "PC.C34_scaling",
    "PC.C34_relabelling"
   ],
   "note": "Formula, translation, scaling and relabelling invariance for every kernel."
  },
  {
   "property": "C35",
   "status": "partial",
   "theorems": [
    "PC.C35_first_query_wins",
    "PC.C35_compute_partial",
    "PC.C35_after_failures_partial",
    "PC.C35_get_pdf_false"
   ],
   "note": "False: the first density is cached for ever (C35_first_query_wins, C35_get_pdf_false); proved: what is returned after explicit compute_pdf, on new objects and after failed calls."
  },
  {
   "property": "C36",
   "status": "proved",
   "theorems": [
    "PC.C36_normalized",
    "PC.C36_unit_mass"
   ],
   "note": "For every neighbourhood, mode and kernel."
  },
  {
   "property": "C37",
   "status": "partial",
   "theorems": [
    "PC.C37_density_estimation_false",
    "PC.C37_no_pdf_partial",
    "PC.C37_gathers"
   ],
   "note": "False for constant and num_points on every input: wrong number of arguments (C37_density_estimation_false); proved for no_pdf. C37_gathers states what the rest of the second function does with a density per point."
  },
  {
   "property": "C38",
   "status": "proved",
   "theorems": [
    "PC.C38_basis_proj",
    "PC.C38_order_independent",
    "PC.C38_empty",
    "PC.C38_linear_features",
    "PC.C38_linear_basis",
    "PC.C38_geometric"
   ],
   "note": "Proved on the neighbour list and, for the neighbourhoods the layers build, over exactly the points within the radius."
  },
  {
   "property": "C39",
   "status": "proved",
   "theorems": [
    "PC.C39_padded_count",
    "PC.C39_padding"
   ],
   "note": ""
  },
  {
   "property": "C40",
   "status": "partial",
   "theorems": [
    "PC.C40_linear",
    "PC.C40_gaussian",
    "PC.C40_monotone",
    "PC.C40_strict",
    "PC.C40_given_influence",
    "PC.C40_default_false"
   ],
   "note": "Weights: proved in full. The documented default influence distance conv_radius/2.5 is false (C40_default_false): the code uses conv_radius."
  },
  {
   "property": "C41",
   "status": "proved",
   "theorems": [
    "PC.C41_mcconv_formula",
    "PC.C41_kernel_mlp",
    "PC.C41_mcconv_returns",
    "PC.C41_mcconv_translation",
    "PC.C41_mcconv_linear",
    "PC.C41_pointconv_formula",
    "PC.C41_pointconv_returns",
    "PC.C41_pointconv_translation",
    "PC.C41_pointconv_linear",
    "PC.C41_kpconv_formula",
    "PC.C41_kpconv_returns",
    "PC.C41_kpconv_translation",
    "PC.C41_kpconv_linear"
   ],
   "note": "Closed formulas for all three layers on both devices, from which translation invariance and linearity follow; GPU calls are shown to return."
  },
  {
   "property": "C42",
   "status": "proved",
   "theorems": [
    "PC.C42_constructible",
    "PC.C42_value_error",
    "PC.C42_channel_blocks",
    "PC.C42_only_own_mlp",
    "PC.C42_channel_formula"
   ],
   "note": ""
  },
  {
   "property": "C43",
   "status": "proved",
   "theorems": [
    "PC.C43_global_max",
    "PC.C43_local_max",
    "PC.C43_monotone",
    "PC.C43_monotone_global",
    "PC.C43_order",
    "PC.C43_order_global"
   ],
   "note": "Global and local max pooling; commutes with monotone maps and reorderings."
  },
  {
   "property": "C44",
   "status": "proved",
   "theorems": [
    "PC.C44_global_mean",
    "PC.C44_local_mean",
    "PC.C44_between",
    "PC.C44_constant",
    "PC.C44_linear",
    "PC.C44_returns"
   ],
   "note": "Mean over exactly the batch element / ball, 0 for empty neighbourhoods; GPU calls return."
  },
  {
   "property": "C45",
   "status": "partial",
   "theorems": [
    "PC.C45_float_radius_raises",
    "PC.C45_vector_radius_partial",
    "PC.C45_float_radius_false"
   ],
   "note": "False for every float radius: IndexError (C45_float_radius_raises); proved for vectors."
  },
  {
   "property": "C46",
   "status": "proved",
   "theorems": [
    "PC.C46_pointwise",
    "PC.C46_affine",
    "PC.C46_reorder",
    "PC.C46_weights"
   ],
   "note": "Independence of other points, affinity, reordering, and determination of the weights."
  },
  {
   "property": "C47",
   "status": "proved",
   "theorems": [
    "PC.C47_dot",
    "PC.C47_isometry",
    "PC.C47_orientation"
   ],
   "note": "All angles, real arithmetic."
  },
  {
   "property": "C48",
   "status": "partial",
   "theorems": [
    "PC.C48_distinct_partial",
    "PC.C48_unsupported",
    "PC.C48_fifteen",
    "PC.C48_distinct_false",
    "PC.C48_thirteen"
   ],
   "note": "Proved for 5, 7, 18; 15 (the layers' default) always contains duplicates, 13 always raises."
  },
  {
   "property": "C49",
   "status": "partial",
   "theorems": [
    "PC.C49_table_partial",
    "PC.C49_no_final_newline",
    "PC.C49_no_features_raises",
    "PC.C49_final_newline_false",
    "PC.C49_three_columns_false",
    "PC.C49_rows_misaligned",
    "PC.C49_bad_path"
   ],
   "note": "False without final newline (last character lost) and for files with at most three columns or without features (raises); proved for newline-terminated tables with more than three columns and at least one feature, any delimiter string."
  },
  {
   "property": "C50",
   "status": "partial",
   "theorems": [
    "PC.C50_no_limit_empty",
    "PC.C50_limit_partial",
    "PC.C50_unlimited_false"
   ],
   "note": "False without a limit: nothing is read (proved for every file); with a limit m the first m lines are read."
  },
  {
   "property": "C51",
   "status": "partial",
   "theorems": [
    "PC.C51_batch_partial",
    "PC.C51_shape_rejected",
    "PC.C51_point_dimension_raises",
    "PC.C51_point_dimension_false",
    "PC.C51_point_cloud"
   ],
   "note": "Proved for point_dimension=3; every other point_dimension raises (proved), so the claim for all dimensions is false. Includes the composition with PointCloud: element b has the points of file b."
  },
  {
   "property": "C52",
   "status": "partial",
   "theorems": [
    "PC.C52_default_rows",
    "PC.C52_sorted_partial",
    "PC.C52_explicit_partial",
    "PC.C52_order_partial",
    "PC.C52_returns",
    "PC.C52_aligned_false"
   ],
   "note": "False: without a given neighbourhood the convolution rows follow the grid's sorted order (C52_default_rows, C52_aligned_false). Proved for sorted clouds and for neighbourhoods built with an explicit sample cloud, any number of blocks, with order equivariance."
  },
  {
   "property": "C53",
   "status": "proved",
   "theorems": [
    "PC.C53_encode",
    "PC.C53_decode",
    "PC.C53_encode_decode",
    "PC.C53_ds_index"
   ],
   "note": "Integer overflow is not modelled (unbounded integers with C division)."
  },
  {
   "property": "C54",
   "status": "proved",
   "theorems": [
    "PC.C54_table",
    "PC.C54_equals_tf",
    "PC.C54_schedule_independent",
    "PC.C54_no_conflict",
    "PC.C54_in_bounds"
   ],
   "note": "Every interleaving of the grid-stride threads, any thread count; sequentially consistent memory."
  },
  {
   "property": "C55",
   "status": "proved",
   "theorems": [
    "PC.C55_range"
   ],
   "note": "Stated for any descending key array and any table as in C54; the iteration bound is the logarithm of the number of points."
  },
  {
   "property": "C56",
   "status": "partial",
   "theorems": [
    "PC.C56_sound",
    "PC.C56_complete",
    "PC.C56_no_duplicates_partial",
    "PC.C56_no_duplicates_false"
   ],
   "note": "Soundness and completeness hold for all dimensions >= 2, all radii up to the cell sizes, and any box margin. The duplicate-free part is false for D >= 4 when the grid has one or two cells along the last dimension (negation with witness); proved otherwise."
  },
  {
   "property": "C57",
   "status": "partial",
   "theorems": [
    "PC.C57_scan_partial",
    "PC.C57_run_exists",
    "PC.C57_total",
    "PC.C57_scan_false"
   ],
   "note": "The total is right for every length, launch geometry and schedule; the prefix sums are proved when no block of the propagation kernel loops twice (N <= 512 + 64 W for W blocks). Beyond that the propagation kernel races with itself (C57_scan_false). Integer overflow not modelled; exited threads take no part in barriers."
  },
  {
   "property": "C58",
   "status": "partial",
   "theorems": [
    "PC.C58_find_neighbors_false",
    "PC.C58_counts",
    "PC.C58_run_exists",
    "PC.C58_store_partial",
    "PC.C58_store_false",
    "PC.C58_find_neighbors_partial"
   ],
   "note": "Counting is exact for every schedule and launch size. Storing (and the whole op composed with the range search of C56) is proved for every schedule when the scan is exact (S <= 512 + 64 W, see C57); beyond that the race of the scan gives wrong slot ranges (C58_store_false), also for the whole op on a cloud that can be built (C58_find_neighbors_false)."
  },
  {
   "property": "C59",
   "status": "partial",
   "theorems": [
    "PC.C59_counters",
    "PC.C59_passes_false",
    "PC.C59_limit_partial",
    "PC.C59_below_limit",
    "PC.C59_race_false",
    "PC.C59_seed_false",
    "PC.C59_find_neighbors_partial"
   ],
   "note": "The claim is false in three ways, each with a machine-checked witness: a race between the limit counter and the slot counter (C59_race_false), several passes from four dimensions on (C59_passes_false), and rare seeds (C59_seed_false). Proved: the counters for every schedule, the full claim in two and three dimensions when no counter is read before b slots are given out and 1 <= offset <= b (also composed with the range search), and equality with the unlimited search when no centre exceeds the limit."
  },
  {
   "property": "C60",
   "status": "proved",
   "theorems": [
    "PC.C60_cells_apart",
    "PC.C60_poisson",
    "PC.C60_run_exists"
   ],
   "note": "Proved for all dimensions, clouds, launch sizes and schedules, for exact neighbour lists over the sorted points and radii up to the cell sizes; sequentially consistent memory. The three output arrays of store_sampled_pts are modelled by the index array."
  },
  {
   "property": "C61",
   "status": "proved",
   "theorems": [
    "PC.C61_cell_average",
    "PC.C61_schedule_independent",
    "PC.C61_regular_cells",
    "PC.C61_equals_tf",
    "PC.C61_run_exists"
   ],
   "note": "Proved for all clouds, launch sizes and schedules in exact arithmetic; C61_equals_tf compares with the tensorflow implementation up to the order of the samples. Empty clouds are excluded."
  },
  {
   "property": "C62",
   "status": "proved",
   "theorems": [
    "PC.C62_forward_equals_tf",
    "PC.C62_adjoint",
    "PC.C62_gradient"
   ],
   "note": "Both kernels are modelled thread by thread with shared memory, barriers and atomics (CudaProj.lean); exact arithmetic. C62_forward_equals_tf: every schedule of the forward kernel returns the tensor of the TensorFlow function. C62_adjoint: the two gradients are the adjoint of the (bilinear) projection, over every field. C62_gradient: they are its Frechet derivative over the reals. At least one sample is assumed for the gradient (with none the kernel is launched with zero blocks)."
  },
  {
   "property": "C63",
   "status": "proved",
   "theorems": [
    "PC.C63_gradient"
   ],
   "note": "Proved over the reals (Frechet derivative of the weighted sum of densities as a function of all points), for all launch sizes and schedules of the forward and the gradient kernel and both modes; neighbour indices must be valid."
  },
  {
   "property": "C64",
   "status": "proved",
   "theorems": [
    "PC.C64_kahan_exact",
    "PC.C64_order",
    "PC.C64_rounding",
    "PC.C64_underflow"
   ],
   "note": "Exact arithmetic: equals the plain sum in every ring, in every order. With rounding of every operation (relative error u): C64_rounding bounds the error by (7u + 14 n u^2) times the sum of absolute values; C64_underflow: also with gradual underflow."
  },
  {
   "property": "C65",
   "status": "proved",
   "theorems": [
    "PC.C65_broadcast"
   ],
   "note": ""
  },
  {
   "property": "C66",
   "status": "partial",
   "theorems": [
    "PC.C66_padded_set_batch_shape_false",
    "PC.C66_set_batch_shape_partial"
   ],
   "note": "False for clouds built from padded input; proved for clouds given by batch ids."
  },
  {
   "property": "C67",
   "status": "partial",
   "theorems": [
    "PC.C67_sizes_checked_false",
    "PC.C67_sizes_partial"
   ],
   "note": "False: sum(sizes) is never compared with N; proved what holds when they agree."
  },
  {
   "property": "C68",
   "status": "partial",
   "theorems": [
    "PC.C68_neighborhood_partial",
    "PC.C68_index_range",
    "PC.C68_between_levels_false"
   ],
   "note": "False: the stored neighbourhoods are self neighbourhoods of level i (C68_between_levels_false), and indices are limited to the number of cell sizes; proved what is returned."
  },
  {
   "property": "C69",
   "status": "partial",
   "theorems": [
    "PC.C69_all_transposed_false",
    "PC.C69_transposed_partial"
   ],
   "note": "False without index (C69_all_transposed_false: AttributeError); single index proved."
  },
  {
   "property": "C70",
   "status": "partial",
   "theorems": [
    "PC.C70_set_batch_shape_partial",
    "PC.C70_levels",
    "PC.C70_set_batch_shape_false"
   ],
   "note": "False with empty batch elements (C70_set_batch_shape_false); proved without, for all call histories."
  },
  {
   "property": "C71",
   "status": "proved",
   "theorems": [
    "PC.C71_get_points"
   ],
   "note": ""
  },
  {
   "property": "C72",
   "status": "proved",
   "theorems": [
    "PC.C72_density_inside"
   ],
   "note": "For the TensorFlow implementation, from the range structure proved in C19."
  },
  {
   "property": "C73",
   "status": "proved",
   "theorems": [
    "PC.C73_mcconv_order",
    "PC.C73_pointconv_order",
    "PC.C73_kpconv_order"
   ],
   "note": ""
  },
  {
   "property": "C74",
   "status": "partial",
   "theorems": [
    "PC.C74_mcconv_scale",
    "PC.C74_kpconv_scale",
    "PC.C74_pointconv_scale_false"
   ],
   "note": "Proved for MCConv and KPConv; false for PointConv (C74_pointconv_scale_false): differences are not divided by the radius."
  },
  {
   "property": "C75",
   "status": "partial",
   "theorems": [
    "PC.C75_surplus_ignored",
    "PC.C75_missing_raises",
    "PC.C75_rows",
    "PC.C75_custom_kernel_points_false",
    "PC.C75_matching_partial"
   ],
   "note": "False: surplus kernel points are ignored, missing ones raise or give a wrong number of rows; proved for matching counts."
  },
  {
   "property": "C76",
   "status": "partial",
   "theorems": [
    "PC.C76_formula",
    "PC.C76_rigid",
    "PC.C76_nonneg",
    "PC.C76_finite_partial",
    "PC.C76_empty_blowup",
    "PC.C76_finite_false"
   ],
   "note": "Formula and non-negativity proved; unbounded as soon as one output point has no neighbour (C76_finite_false); rigid layers raise."
  },
  {
   "property": "C77",
   "status": "partial",
   "theorems": [
    "PC.C77_padded_partial",
    "PC.C77_shape",
    "PC.C77_segmented_raises",
    "PC.C77_padded_false"
   ],
   "note": "False for clouds without batch shape (always ValueError); proved otherwise."
  },
  {
   "property": "C78",
   "status": "proved",
   "theorems": [
    "PC.C78_lattice",
    "PC.C78_unit_cube"
   ],
   "note": ""
  },
  {
   "property": "C79",
   "status": "partial",
   "theorems": [
    "PC.C79_bind",
    "PC.C79_conv1x1_keywords",
    "PC.C79_layer_types_partial",
    "PC.C79_kpconv_raises",
    "PC.C79_kpconv_network",
    "PC.C79_bottleneck_raises",
    "PC.C79_layer_types_false",
    "PC.C79_kpconv_spatial"
   ],
   "note": "False: KPConv blocks always raise TypeError, the bottleneck network can not be constructed with a positive number of blocks; proved for MCConv and PointConv."
  },
  {
   "property": "C80",
   "status": "proved",
   "theorems": [
    "PC.C80_mesh_batch",
    "PC.C80_shape_product"
   ],
   "note": ""
  },
  {
   "property": "C81",
   "status": "partial",
   "theorems": [
    "PC.C81_same_keys",
    "PC.C81_cell",
    "PC.C81_kernel",
    "PC.C81_same_keys_false"
   ],
   "note": "Proved for a positive box margin; when the margin is absorbed by float32 rounding (margin 0) the statement is false (negation with witness), because TensorFlow clamps to num_cells and CUDA to num_cells-1."
  },
  {
   "property": "C82",
   "status": "partial",
   "theorems": [
    "PC.C82_always_last",
    "PC.C82_every_slot_false",
    "PC.C82_first_arrivals"
   ],
   "note": "False: seed_to_float returns an unsigned int, so the draw is 0 for all but 128 seeds; the new neighbour is then always accepted and always replaces the last slot (C82_always_last), all other slots keep the first arrivals (C82_first_arrivals)."
  },
  {
   "property": "C83",
   "status": "partial",
   "theorems": [
    "PC.C83_pipeline_partial"
   ],
   "note": "Proved for clouds of at most 512 + 64*Ws points (Ws the number of resident blocks of the scan kernel); beyond that the scan kernel has a race (C57) and the neighbourhoods the sampling starts from can be wrong (C58_find_neighbors_false)."
  },
  {
   "property": "C84",
   "status": "partial",
   "theorems": [
    "PC.C84_constant_partial",
    "PC.C84_num_points_bandwidth",
    "PC.C84_modes_false"
   ],
   "note": "Constant mode: proved up to a relative error of 2e-8 caused by the literal 0.39894228. Mode num_points: false, the TensorFlow implementation ignores the mode and the kernel ignores the bandwidth (it uses 1/sqrt(number of points), C84_num_points_bandwidth)."
  },
  {
   "property": "C85",
   "status": "partial",
   "theorems": [
    "PC.C85_constant_local_partial",
    "PC.C85_num_points_false"
   ],
   "note": "Constant mode: proved. Mode num_points on the GPU: false, the bandwidth is computed from the number of all points of the batch, not of the receptive field as the comment in compute_pdf_ops.cpp says."
  },
  {
   "property": "C86",
   "status": "proved",
   "theorems": [
    "PC.C86_uniform_passes",
    "PC.C86_shared_memory",
    "PC.C86_output_bounds"
   ],
   "note": "Proved for the block size 64, the four accepted numbers of basis functions and every accepted number of features."
  },
  {
   "property": "C87",
   "status": "partial",
   "theorems": [
    "PC.C87_default_rows",
    "PC.C87_sorted_partial",
    "PC.C87_explicit_partial",
    "PC.C87_transposed_reuse",
    "PC.C87_returns",
    "PC.C87_aligned_false"
   ],
   "note": "False without given neighbourhoods: the inner convolution uses the sorted cloud's neighbourhood (C87_aligned_false). C87_default_rows says exactly what is computed; C87_sorted_partial and C87_explicit_partial give alignment for sorted clouds or given neighbourhoods; C87_transposed_reuse is proved for all clouds; C87_returns: no exception on the GPU."
  },
  {
   "property": "C88",
   "status": "proved",
   "theorems": [
    "PC.C88_names",
    "PC.C88_labels",
    "PC.C88_unknown",
    "PC.C88_same_label"
   ],
   "note": "Text level model: lines, suffix of five characters, labels by list.index."
  },
  {
   "property": "C89",
   "status": "partial",
   "theorems": [
    "PC.C89_rows",
    "PC.C89_first_run",
    "PC.C89_history_partial",
    "PC.C89_cut_partial",
    "PC.C89_quick_spoils",
    "PC.C89_killed_while_writing",
    "PC.C89_cache_false"
   ],
   "note": "False: the file is reused without checking the settings (C89_cache_false); a quick test leaves uninitialised rows for every later run (C89_quick_spoils); a kill during the write makes every later run raise (C89_killed_while_writing). Partial: equal settings and no kill during the write (C89_history_partial), fewer points with the cut of modelnet40_small.py (C89_cut_partial). Every row loaded from its file has the requested number of points (C89_rows)."
  },
  {
   "property": "C90",
   "status": "proved",
   "theorems": [
    "PC.C90_pass",
    "PC.C90_augmentation"
   ],
   "note": "The permutation and the uniform numbers are universally quantified."
  },
  {
   "property": "C91",
   "status": "partial",
   "theorems": [
    "PC.C91_same_batches",
    "PC.C91_labels_repeat",
    "PC.C91_divisible_partial",
    "PC.C91_all_models_false",
    "PC.C91_unused"
   ],
   "note": "False: iterating a keras Sequence does not call on_epoch_end, so every epoch uses the same batches (C91_same_batches, C91_labels_repeat) and N mod B models are never used (C91_unused, C91_all_models_false). Partial: every model is used in every epoch when B divides N (C91_divisible_partial)."
  },
  {
   "property": "C92",
   "status": "proved",
   "theorems": [
    "PC.C92_calls"
   ],
   "note": "All histories; the permutation of the last on_epoch_end must be a permutation."
  },
  {
   "property": "C93",
   "status": "proved",
   "theorems": [
    "PC.C93_learning_rate",
    "PC.C93_monotone"
   ],
   "note": "The staircase formula of ExponentialDecay is modelled in exact arithmetic."
  },
  {
   "property": "C94",
   "status": "proved",
   "theorems": [
    "PC.C94_mcconv",
    "PC.C94_pointconv",
    "PC.C94_kpconv",
    "PC.C94_local_pooling",
    "PC.C94_global_pooling",
    "PC.C94_conv1x1",
    "PC.C94_cell_average",
    "PC.C94_hierarchy",
    "PC.C94_one_by_one",
    "PC.C94_poisson",
    "PC.C94_poisson_hierarchy"
   ],
   "note": "Poisson disk sampling is random: C94_poisson and C94_poisson_hierarchy show that what can be kept for an element in one batch can be kept for it in any other, together with whatever can be kept there for the other elements (one radius for all dimensions; the hierarchy on the GPU). Real arithmetic, so the order of summation does not matter. Cloud.element shows that an element alone is such a pair."
  },
  {
   "property": "C95",
   "status": "partial",
   "theorems": [
    "PC.C95_never_empty_partial",
    "PC.C95_max_pooling_partial",
    "PC.C95_never_empty_false"
   ],
   "note": "Proved for Poisson disk hierarchies in every dimension and for cell average hierarchies of dimension 2 to 4 (isotropic sizes). False for cell averages from dimension 5 on: C95_never_empty_false gives a cloud of corner points of one cell whose average is farther than the cell size from each of them."
  },
  {
   "property": "C96",
   "status": "partial",
   "theorems": [
    "PC.C96_poisson",
    "PC.C96_cell_average_partial",
    "PC.C96_cell_average_false"
   ],
   "note": "Proved for Poisson disk sampling with any radius at least the sampling radius. For cell averages the statement is false at radius = cell size (C96_cell_average_false); it holds once the radius is at least sqrt(D) times the cell size (C96_cell_average_partial), which covers the convolution radii (twice the cell size) of modelnet40.py in dimension 3."
  },
  {
   "property": "C97",
   "status": "proved",
   "theorems": [
    "PC.C97_conv_formula",
    "PC.C97_head_formula",
    "PC.C97_from_levels",
    "PC.C97_logits_of_a_shape",
    "PC.C97_returns"
   ],
   "note": "Real arithmetic; inference (dropout and batch statistics inactive); cell average sampling, deterministic as in the default of the script; constant input features (what the script feeds). C97_from_levels gives the same conclusion for every sampling and every features that agree on the first level. C97_conv_formula and C97_head_formula give the values of a block and of the classification head."
  },
  {
   "property": "C98",
   "status": "partial",
   "theorems": [
    "PC.C98_head_formula",
    "PC.C98_rows",
    "PC.C98_from_levels",
    "PC.C98_one_row_per_shape_partial",
    "PC.C98_logits_of_a_shape_partial",
    "PC.C98_returns",
    "PC.C98_one_row_per_shape_false"
   ],
   "note": "Proved when the shapes are small against the last sampling radius (distances below it for Poisson disk sampling, extents below it minus the border for cell averages). False in general: C98_one_row_per_shape_false gives a shape with two points at distance three and radius one that gets more than one row. Logits of a shape proved for cell averages at inference; C98_from_levels for any sampling. C98_head_formula gives the values of the head."
  },
  {
   "property": "C99",
   "status": "partial",
   "theorems": [
    "PC.C99_input_features_false"
   ],
   "note": "False: the call cuts the batch axis of the padded features instead of selecting the sampled points and flattens with the sizes of the sampled level, so a sample gets the feature of an unrelated input point. Formal counterexample with coordinates as features."
  },
  {
   "property": "C100",
   "status": "partial",
   "theorems": [
    "PC.C100_tf_key_modulo",
    "PC.C100_tf_exact_partial",
    "PC.C100_cuda_exact",
    "PC.C100_cuda_table_index",
    "PC.C100_tf_false"
   ],
   "note": "CUDA: exact below 2^63 cells, and below 2^31 entries of the table. TensorFlow: exact up to 2^31 cells over all batch elements; false beyond (C100_tf_false: two batch elements of 65536 x 65536 cells share a key); the 32 bit key is always the exact key modulo 2^32."
  },
  {
   "property": "C101",
   "status": "proved",
   "theorems": [
    "PC.C101_division_exact",
    "PC.C101_table_index",
    "PC.C101_needs_float64"
   ],
   "note": "For every format with p digits, keys below 2^p. C101_table_index combines it with the 32 bit keys. C101_needs_float64 shows that float32 would not do."
  },
  {
   "property": "C102",
   "status": "partial",
   "theorems": [
    "PC.C102_cuda_in_range",
    "PC.C102_tf_partial",
    "PC.C102_exact",
    "PC.C102_tf_false",
    "PC.C102_tf_batches_false"
   ],
   "note": "CUDA: proved for arbitrary quotients, since the kernel clamps to the last cell. TensorFlow: false (C102_tf_false, C102_tf_batches_false): it clamps to the number of cells, and with float32 the border of 1e-9 is lost beside coordinates such as 1.0, so the corner of a unit square with cell size 0.5 falls out of the grid and shares its key with a point of the next batch element. C102_tf_partial: the cell exceeds the grid by at most one, and only when the rounded quotient is an integer."
  },
  {
   "property": "C103",
   "status": "partial",
   "theorems": [
    "PC.C103_build_reads",
    "PC.C103_search_reads",
    "PC.C103_count_bounds",
    "PC.C103_store_bounds",
    "PC.C103_limit_false",
    "PC.C103_pdf_bounds",
    "PC.C103_average_bounds",
    "PC.C103_poisson_bounds"
   ],
   "note": "Reads are stated as non-interference: memories that agree inside the arrays give the same result. The projection kernels are covered by C86, writes of the access structure by C54_in_bounds. False with a limit on the number of neighbours: C103_limit_false gives a schedule in which a thread writes before the begin of the output. Storing without limit under the bound of the scan kernel (see C57)."
  },
  {
   "property": "C104",
   "status": "partial",
   "theorems": [
    "PC.C104_grid",
    "PC.C104_grid_shape",
    "PC.C104_cell_sizes",
    "PC.C104_search",
    "PC.C104_pdf",
    "PC.C104_pdf_grads",
    "PC.C104_sampling",
    "PC.C104_dims_false",
    "PC.C104_empty_false",
    "PC.C104_batches_false",
    "PC.C104_rank_false"
   ],
   "note": "C104_grid, C104_search, C104_pdf, C104_sampling give the exact conditions (2 to 6 dimensions, at least one point and centre, non-empty batch, equal dimensions); C104_cell_sizes: other numbers of cell sizes are rejected. Violations: C104_dims_false (one dimension is rejected), C104_empty_false (an empty cloud ends the process), C104_batches_false (centres of more batch elements than the grid are accepted), C104_rank_false (a table of cell sizes is accepted). Sizes are assumed to fit into unsigned int."
  },
  {
   "property": "C105",
   "status": "partial",
   "theorems": [
    "PC.C105_projection",
    "PC.C105_projection_grads",
    "PC.C105_mcconv",
    "PC.C105_features_false",
    "PC.C105_basis_false",
    "PC.C105_kpconv",
    "PC.C105_network"
   ],
   "note": "C105_projection, C105_mcconv, C105_kpconv give the exact conditions, C105_network covers all feature lists of positive multiples of 32. Violations: C105_features_false (12 input features), C105_basis_false (3 MLPs of size 8)."
  },
  {
   "property": "C106",
   "status": "partial",
   "theorems": [
    "PC.C106_exact",
    "PC.C106_find_neighbors_partial",
    "PC.C106_last_sample_lost",
    "PC.C106_counts_false",
    "PC.C106_abort",
    "PC.C106_table_zero",
    "PC.C106_table_false",
    "PC.C106_run_exists"
   ],
   "note": "Up to 29826161 centres the machine has exactly the runs of the unbounded model (C106_exact, C106_find_neighbors_partial, which also needs the size bound of C57). From 29826162 centres on the last centre never gets a neighbour (C106_last_sample_lost, C106_counts_false); multiples of 2^28 centres end the process (C106_abort). The table is initialised below 2^31 cells (C106_table_zero), not for 2^31 (C106_table_false). The limited storing kernel has the same loop bound and is not repeated."
  },
  {
   "property": "C107",
   "status": "partial",
   "theorems": [
    "PC.C107_tf_limit_unused",
    "PC.C107_tf_in_cuda",
    "PC.C107_agree_partial",
    "PC.C107_radii_false",
    "PC.C107_small_radius_false",
    "PC.C107_limit_false"
   ],
   "note": "Agreement for one radius equal to the cell size (C107_agree_partial); one inclusion when the first radius is the smallest (C107_tf_in_cuda). False for radii that differ between the dimensions (C107_radii_false), for radii below the cell size (C107_small_radius_false), and with a limit (C107_limit_false), which the TensorFlow search ignores (C107_tf_limit_unused)."
  },
  {
   "property": "C108",
   "status": "partial",
   "theorems": [
    "PC.C108_max_pool",
    "PC.C108_mean_pool_partial",
    "PC.C108_mcconv_formula_partial",
    "PC.C108_mcconv_partial",
    "PC.C108_pointconv_partial",
    "PC.C108_kpconv_partial",
    "PC.C108_mcconv_runs",
    "PC.C108_pointconv_runs",
    "PC.C108_kpconv_runs",
    "PC.C108_mean_pool_false"
   ],
   "note": "Maximum pooling in every dimension (C108_max_pool); average pooling, MCConv, PointConv and KPConv in two and three dimensions, or with at least three cells in the last dimension (C108_mean_pool_partial, C108_mcconv_partial, C108_pointconv_partial, C108_kpconv_partial), all for clouds the scan handles in one pass (C57) and without rounding. Average pooling in four dimensions is refuted by a run that counts neighbours several times (C108_mean_pool_false). Every call has a run (C108_*_runs)."
  },
  {
   "property": "C109",
   "status": "partial",
   "theorems": [
    "PC.C109_mcconv_partial",
    "PC.C109_pointconv_partial",
    "PC.C109_kpconv_partial",
    "PC.C109_runs",
    "PC.C109_kpconv_false"
   ],
   "note": "C109_mcconv_partial (points, features, final weights, kernel MLP outputs), C109_pointconv_partial and C109_kpconv_partial (features, weights, basis values; rigid kernel points): two and three dimensions, no pair exactly at the radius (unless its points do not move relative to each other), clouds the scan handles in one pass, no rounding; the derivatives of the parts TensorFlow differentiates itself (kernel MLP, kernel point weights) are hypotheses. Without the condition on the radius the claim fails: the output jumps when a point crosses it (C109_kpconv_false). Every backward pass has a run (C109_runs)."
  },
  {
   "property": "C110",
   "status": "partial",
   "theorems": [
    "PC.C110_poisson_results",
    "PC.C110_poisson_refines_partial",
    "PC.C110_average_same",
    "PC.C110_poisson_hierarchy_partial",
    "PC.C110_average_hierarchy_partial",
    "PC.C110_sample_runs",
    "PC.C110_runs",
    "PC.C110_poisson_refines_false"
   ],
   "note": "C110_poisson_results: the samples of the TensorFlow version are exactly the separated covering lists, in any order. C110_poisson_refines_partial / C110_poisson_hierarchy_partial: a GPU sample is one of them, equal cell sides, clouds the scan handles in one pass; with different sides this fails (C110_poisson_refines_false: the TensorFlow version compares with the first side only). C110_average_same (any sides) and C110_average_hierarchy_partial (equal sides) for cell averages. C110_sample_runs, C110_runs: runs exist."
  },
  {
   "property": "C111",
   "status": "partial",
   "theorems": [
    "PC.C111_logits_partial",
    "PC.C111_poisson_partial",
    "PC.C111_average_partial",
    "PC.C111_small_logits_partial",
    "PC.C111_small_poisson_partial",
    "PC.C111_small_average_partial",
    "PC.C111_runs",
    "PC.C111_small_runs",
    "PC.C111_logits_of_a_shape_partial"
   ],
   "note": "Points in two or three dimensions, clouds the scan handles in one pass, no rounding, Monte Carlo convolutions with the rounded constant of the CUDA density kernel. C111_logits_partial / C111_small_logits_partial: given levels, training and inference. C111_poisson_partial / C111_small_poisson_partial: whole call. C111_average_partial: inference, constant features (C99 shows why other features are not determined); C111_small_average_partial: any features, shapes small against the last cell size. C111_logits_of_a_shape_partial: batch independence on the GPU. C111_runs, C111_small_runs: runs exist."
  },
  {
   "property": "C112",
   "status": "partial",
   "theorems": [
    "PC.C112_points_stay",
    "PC.C112_sizes_partial",
    "PC.C112_points_partial",
    "PC.C112_constructor",
    "PC.C112_limit_false"
   ],
   "note": "C112_points_stay; C112_sizes_partial and C112_points_partial for levels without empty batch elements and histories in which no level itself was asked for a number of rows (C06, C07 say what happens then); C112_constructor: the constructor builds such hierarchies. max_num_points is not honoured (C112_limit_false; C112_points_partial holds for every value of it)."
  },
  {
   "property": "C113",
   "status": "partial",
   "theorems": [
    "PC.C113_keys",
    "PC.C113_ds",
    "PC.C113_find",
    "PC.C113_sampling",
    "PC.C113_pdf",
    "PC.C113_pdf_grads",
    "PC.C113_proj",
    "PC.C113_proj_grads_partial",
    "PC.C113_proj_grads_false",
    "PC.C113_pdf_backward",
    "PC.C113_proj_backward"
   ],
   "note": "One theorem per operation. The projection gradients: C113_proj_grads_partial for shapes of rank at most two; C113_proj_grads_false: the shape function of that operation is wrong for a tensor of rank three its checks accept. C113_pdf_backward, C113_proj_backward: shapes of the gradients."
  },
  {
   "property": "C114",
   "status": "partial",
   "theorems": [
    "PC.C114_mcconv",
    "PC.C114_pointconv_partial",
    "PC.C114_fresh_network",
    "PC.C114_pointconv_fresh_partial",
    "PC.C114_pointconv_false"
   ],
   "note": "MCConv proved for positive bandwidth and radius (C114_mcconv). PointConv divides by the output of a trained network: proved if the network has no zero on (0, 1] (C114_pointconv_partial), for fresh layers iff their weights do not cancel (C114_fresh_network, C114_pointconv_fresh_partial); false in general (C114_pointconv_false: a freshly initialised layer with negative first weights divides by zero on every input). No rounding: densities that underflow are not covered."
  },
  {
   "property": "C115",
   "status": "partial",
   "theorems": [
    "PC.C115_layouts_partial",
    "PC.C115_layouts_false"
   ],
   "note": "C115_layouts_partial: any sequence, any layouts, clouds without empty batch elements, nobody asked the clouds for a number of rows; sorted rows only at the end or for clouds whose batch ids are sorted. Sorted rows of an unsorted cloud are taken for unsorted ones by the next layer (C115_layouts_false)."
  },
  {
   "property": "C116",
   "status": "partial",
   "theorems": [
    "PC.C116_mcconv",
    "PC.C116_pointconv",
    "PC.C116_kpconv_partial",
    "PC.C116_kpconv_local",
    "PC.C116_kpconv_false"
   ],
   "note": "MCConv and PointConv with explicit matrices; KPConv with rigid kernel points (C116_kpconv_partial); with deformable kernel points the map is not linear (C116_kpconv_false) but still acts on every point alone (C116_kpconv_local)."
  },
  {
   "property": "C117",
   "status": "partial",
   "theorems": [
    "PC.C117_reuse_partial",
    "PC.C117_no_sample_sorted",
    "PC.C117_no_sample_partial",
    "PC.C117_no_sample_false",
    "PC.C117_bandwidth_false"
   ],
   "note": "C117_reuse_partial: neighbourhoods built with the output cloud, one bandwidth. Different bandwidths: false, the densities of the first call are used (C117_bandwidth_false). Neighborhood(grid, radius) without sample cloud: correct for the cloud of the sorted points (C117_no_sample_sorted) and for clouds that are in grid order (C117_no_sample_partial), false otherwise (C117_no_sample_false): the rows come in grid order; the notebook uses it that way."
  },
  {
   "property": "C118",
   "status": "proved",
   "theorems": [
    "PC.C118_poisson",
    "PC.C118_average",
    "PC.C118_inside",
    "PC.C118_poisson_radii",
    "PC.C118_gpu"
   ],
   "note": "Poisson disk sampling with the first cell size the smallest (the radius of the sampling), cell averages with any cell sizes, every device; C118_gpu for all schedules of the CUDA kernels with one radius per level."
  },
  {
   "property": "C119",
   "status": "proved",
   "theorems": [
    "PC.C119_mcconv",
    "PC.C119_pointconv",
    "PC.C119_kpconv",
    "PC.C119_filters_must_turn"
   ],
   "note": "Gaussian densities with one bandwidth, as in the layers; KPConv rigid and deformable. C119_filters_must_turn: the filters have to be turned along."
  },
  {
   "property": "C120",
   "status": "partial",
   "theorems": [
    "PC.C120_used",
    "PC.C120_validation_partial",
    "PC.C120_returns",
    "PC.C120_all_models_false",
    "PC.C120_no_batch"
   ],
   "note": "Proved if the batch size divides the number of models (C120_validation_partial). Otherwise the last models of the random order are left out (C120_used gives the exact value) and the result depends on the order (C120_all_models_false): 4 of the 2468 test models of ModelNet40 with batches of 16. C120_returns: no exception on the GPU. C120_no_batch: with fewer models than one batch loss and accuracy are reported as zero. The loss of a row is a parameter (library code)."
  },
  {
   "property": "C121",
   "status": "partial",
   "theorems": [
    "PC.C121_own_entry",
    "PC.C121_atomic",
    "PC.C121_keys",
    "PC.C121_average",
    "PC.C121_pdf",
    "PC.C121_build_grid",
    "PC.C121_scan",
    "PC.C121_propagate",
    "PC.C121_count",
    "PC.C121_count_keys",
    "PC.C121_compact",
    "PC.C121_store",
    "PC.C121_store_limited_false",
    "PC.C121_store_limited_partial",
    "PC.C121_poisson",
    "PC.C121_proj",
    "PC.C121_proj_grads"
   ],
   "note": "One theorem per kernel (C121_own_entry for find_ranges_grid_ds and elem_wise_min, whose threads write only the entries of their own index; C121_atomic for the gradients of the densities). Two kernels have races: the propagation of the scan (C121_propagate: race-free exactly if no thread runs its loop twice, that is for at most 512 + 64 W elements) and the neighbour limit (C121_store_limited_false: the counter is read without an atomic instruction; C121_store_limited_partial: none if no centre has more neighbours than the limit). The accesses of an action are what it can change and what influences it."
  },
  {
   "property": "C122",
   "status": "partial",
   "theorems": [
    "PC.C122_eager",
    "PC.C122_launches",
    "PC.C122_average",
    "PC.C122_sampling",
    "PC.C122_find_kernels_partial",
    "PC.C122_find_limit_partial",
    "PC.C122_find_partial",
    "PC.C122_find_false"
   ],
   "note": "Proved for sampling (C122_sampling, C122_average), for operations that only launch kernels (C122_launches) and for the neighbour search in two and three dimensions (C122_find_partial, C122_find_kernels_partial, C122_find_limit_partial). From four dimensions on the storing passes read the offsets from a page-locked buffer which the operation gives back without waiting: C122_find_false shows a schedule in which a neighbour is missing. The partial theorems hold for any dimension if nobody uses the buffer before the stream has read it. Device memory is handed on in stream order."
  },
  {
   "property": "C123",
   "status": "partial",
   "theorems": [
    "PC.C123_scan",
    "PC.C123_count_keys",
    "PC.C123_proj",
    "PC.C123_proj_grads",
    "PC.C123_count_partial",
    "PC.C123_count_false",
    "PC.C123_propagate_partial",
    "PC.C123_propagate_false"
   ],
   "note": "Proved for the first kernel of the scan, the counting of keys, the projection and its gradient. The counting of neighbours has three barriers inside a loop over samples x ranges x threads, which is uniform exactly if the number of centres is a multiple of four (C123_count_partial, C123_count_false); the second kernel of the scan is uniform exactly if the number of elements is a multiple of 64 (C123_propagate_partial, C123_propagate_false). The other claims about these two kernels take a barrier as satisfied by the threads that are still in the loop."
  },
  {
   "property": "C124",
   "status": "partial",
   "theorems": [
    "PC.C124_events_partial",
    "PC.C124_events_false",
    "PC.C124_launches"
   ],
   "note": "False: every neighbour search and every cell average leaves one event behind, every Poisson sampling two (C124_events_partial counts them for every history, C124_events_false shows there is no bound). Operations that only launch kernels leave nothing behind (C124_launches). Buffers allocated by TensorFlow are freed by TensorFlow and are not counted."
  },
  {
   "property": "C125",
   "status": "partial",
   "theorems": [
    "PC.C125_find_neighbors_partial",
    "PC.C125_exists",
    "PC.C125_find_neighbors_false"
   ],
   "note": "Partial: with u the relative error of one operation and all points at most M cells away from the corner of their box, all pairs with scaled distance below 1-(k+11+12M)u are found and no pair above 1+(k+11)u, in k+2 dimensions (C125_find_neighbors_partial), and such runs exist for rounding to nearest (C125_exists). Restricted to the sizes for which the scan is right (C57) and to calls without a neighbour limit (C59). Overflow and underflow of float32 are not modelled; the two kernels that evaluate the test are assumed to agree. C125_find_neighbors_false: without a limit on the number of centres the scan kernel breaks the result even without rounding errors (C57). What happens if the two kernels disagree is C145."
  },
  {
   "property": "C126",
   "status": "partial",
   "theorems": [
    "PC.C126_finite",
    "PC.C126_find_neighbors_partial",
    "PC.C126_find_neighbors_false"
   ],
   "note": "Partial: proved for all coordinates, all boxes and all results of undefined conversions (C126_find_neighbors_partial) with exact arithmetic for finite values; restricted to the sizes for which the scan is right (C57) and to calls without a neighbour limit (C59). Infinite coordinates may give so many cells that the table of the grid does not fit into memory; this is not modelled. C126_finite: for finite values cells and tests are those of C58. C126_find_neighbors_false: without a limit on the number of centres (C57)."
  },
  {
   "property": "C127",
   "status": "partial",
   "theorems": [
    "PC.C127_projection",
    "PC.C127_density",
    "PC.C127_gradient_false",
    "PC.C127_layer_false"
   ],
   "note": "Partial: holds for the projection (C127_projection) and the density estimation (C127_density) in any arithmetic. It is false for the gradients, whose atomic additions happen in the order of the schedule (C127_gradient_false: two runs with 24-bit numbers give 2^25 and 2^25+4), and for the search followed by the projection, because the neighbours of a sample are stored in the order of the schedule (C127_layer_false). Additions and multiplications are separate operations; contraction to fused operations by the compiler is not modelled."
  },
  {
   "property": "C128",
   "status": "proved",
   "theorems": [
    "PC.C128_projection",
    "PC.C128_layer",
    "PC.C128_runs_agree",
    "PC.C128_gradient"
   ],
   "note": "Proved for every rounding with relative error u (no overflow or underflow): projection (C128_projection), search and projection (C128_layer, C128_runs_agree; for sizes for which the scan is right, C57, and without a neighbour limit), gradients of features and basis values relative to the operation in exact arithmetic (C128_gradient, what that computes is C62)."
  },
  {
   "property": "C129",
   "status": "proved",
   "theorems": [
    "PC.C129_head_formula",
    "PC.C129_one_row_per_shape",
    "PC.C129_logits_of_a_shape",
    "PC.C129_returns"
   ],
   "note": "Proved: C129_one_row_per_shape, C129_logits_of_a_shape (cell averages, inference), C129_returns, C129_head_formula (the head of the network written out). Real arithmetic; the moving averages of the normalisation are parameters."
  },
  {
   "property": "C130",
   "status": "partial",
   "theorems": [
    "PC.C130_pairing",
    "PC.C130_training",
    "PC.C130_calls",
    "PC.C130_subset_partial",
    "PC.C130_subset_false"
   ],
   "note": "Partial: pairing (C130_pairing), batches of all epochs (C130_training) and successive calls (C130_calls) are proved. The points of a row are not always a subset: indices are drawn with repetition (C130_subset_false); they are if no index is drawn twice (C130_subset_partial)."
  },
  {
   "property": "C131",
   "status": "partial",
   "theorems": [
    "PC.C131_rates",
    "PC.C131_first_model_partial",
    "PC.C131_next_model",
    "PC.C131_same_rates_false"
   ],
   "note": "Partial: refuted by C131_same_rates_false, because the optimiser and its step counter are shared: the next model is trained with rate^epochs times the rates of the one before (C131_next_model, C131_rates). The first model has the intended schedule (C131_first_model_partial)."
  },
  {
   "property": "C132",
   "status": "partial",
   "theorems": [
    "PC.C132_results",
    "PC.C132_checkpoints_partial",
    "PC.C132_available",
    "PC.C132_final_partial",
    "PC.C132_stale_false",
    "PC.C132_final_false"
   ],
   "note": "Partial: results (C132_results), checkpoints for an empty directory at the start (C132_checkpoints_partial), saved epochs before the last validated one (C132_available), final variables if the last epoch is one that is saved, as with the default interval (C132_final_partial). Refuted otherwise: checkpoints of an earlier run stay under numbers the new run has not reached (C132_stale_false); the final variables may never be written (C132_final_false). A crash inside a write is taken to leave a file that cannot be loaded."
  },
  {
   "property": "C133",
   "status": "partial",
   "theorems": [
    "PC.C133_resume_partial",
    "PC.C133_overwrites",
    "PC.C133_resume_false"
   ],
   "note": "Partial: refuted by C133_resume_false, because neither the state of the optimiser nor its step counter is saved, so the decay starts again; holds for optimisers without state (C133_resume_partial). The resumed run overwrites the checkpoints from number 0 on (C133_overwrites)."
  },
  {
   "property": "C134",
   "status": "partial",
   "theorems": [
    "PC.C134_mcconv_partial",
    "PC.C134_pointconv_partial",
    "PC.C134_kpconv_partial",
    "PC.C134_pool_partial",
    "PC.C134_pool_features",
    "PC.C134_jump_false"
   ],
   "note": "Partial: proved at every position at which no pair of points is exactly one radius apart (C134_mcconv_partial, C134_pointconv_partial, C134_kpconv_partial, C134_pool_partial); PointConv also needs that its density network has no zero in (0, 1]. At the radius a neighbour enters or leaves with full weight, and the output of KPConv jumps (C134_jump_false). The bound for changed features holds without condition on distances (C134_pool_features)."
  },
  {
   "property": "C135",
   "status": "partial",
   "theorems": [
    "PC.C135_mcconv",
    "PC.C135_pointconv_partial",
    "PC.C135_pool",
    "PC.C135_global_pool",
    "PC.C135_kpconv_partial",
    "PC.C135_kpconv_false",
    "PC.C135_poisson",
    "PC.C135_average",
    "PC.C135_hierarchy",
    "PC.C135_tutorial"
   ],
   "note": "Partial: proved for MCConv, local and global pooling (maximum and mean). PointConv and KPConv with fixed kernel points multiply the output by the number of repetitions (C135_pointconv_partial, C135_kpconv_partial), so the claim fails for them (C135_kpconv_false). Samples, hierarchies and the network of the tutorial starting with MCConv: C135_poisson, C135_average, C135_hierarchy, C135_tutorial (repetitions in any order; GPU device for the last two)."
  },
  {
   "property": "C136",
   "status": "proved",
   "theorems": [
    "PC.C136_mcconv",
    "PC.C136_pointconv",
    "PC.C136_pool",
    "PC.C136_chain",
    "PC.C136_kpconv",
    "PC.C136_two_radii"
   ],
   "note": "C136_mcconv, C136_pointconv, C136_pool, C136_kpconv (rigid and deformable), C136_chain (induction over the layers); C136_two_radii gives two clouds that agree within one radius and differ in the output of MCConv."
  },
  {
   "property": "C137",
   "status": "partial",
   "theorems": [
    "PC.C137_accepts",
    "PC.C137_accepted_partial",
    "PC.C137_accepted_false",
    "PC.C137_at_least"
   ],
   "note": "Partial: no version that meets the requirement is refused (C137_accepts) and the comparison with 10.1 is exact (C137_at_least). Accepted are also versions in which the requested one is followed by a further digit (C137_accepted_partial): version 10.1 where 1 is requested (C137_accepted_false)."
  },
  {
   "property": "C138",
   "status": "partial",
   "theorems": [
    "PC.C138_found",
    "PC.C138_complete_partial",
    "PC.C138_no_stop",
    "PC.C138_candidates",
    "PC.C138_complete_false",
    "PC.C138_cudnn_false",
    "PC.C138_cudnn",
    "PC.C138_header",
    "PC.C138_zero",
    "PC.C138_tensorrt"
   ],
   "note": "Partial: what is found is the first accepted candidate (C138_found, C138_candidates, C138_cudnn); it is found whenever there is one if no header stops the search (C138_complete_partial), as for cuBLAS, cuDNN, NCCL and TensorRT (C138_no_stop). A cuda.h without CUDA_VERSION in an earlier directory ends the search with a ValueError (C138_complete_false), and without requirement a cuDNN header without version is taken and reported with an empty version (C138_cudnn_false). C138_header, C138_zero: what is read from a header is the number of the first line that defines exactly this name; a cuda.h of version 0 is passed over. C138_tensorrt: headers of TensorRT have a version exactly if they define all three numbers."
  },
  {
   "property": "C139",
   "status": "partial",
   "theorems": [
    "PC.C139_root_partial",
    "PC.C139_root_false",
    "PC.C139_list",
    "PC.C139_total"
   ],
   "note": "Partial: the answer is the last part of the root, and it is the root exactly if the root has one part, as /usr (C139_root_partial); for /opt/cudnn/lib/x86_64-linux-gnu the search goes to /cudnn (C139_root_false). Other values are split at commas without loss (C139_list); there is exactly one answer (C139_total)."
  },
  {
   "property": "C140",
   "status": "partial",
   "theorems": [
    "PC.C140_logits_partial",
    "PC.C140_poisson_partial",
    "PC.C140_average_partial",
    "PC.C140_runs"
   ],
   "note": "Scope as for C111: points in two or three dimensions, clouds the scan handles in one pass, no rounding, the rounded constant of the CUDA density kernel. C140_logits_partial: given levels, training and inference. C140_poisson_partial: whole call. C140_average_partial: cell averages at inference. C140_runs: runs exist."
  },
  {
   "property": "C141",
   "status": "partial",
   "theorems": [
    "PC.C141_values",
    "PC.C141_frozen",
    "PC.C141_shape_false",
    "PC.C141_shape_partial",
    "PC.C141_hierarchy",
    "PC.C141_hierarchy_runs"
   ],
   "note": "C141_values: no history makes the call fail or changes a value. C141_shape_false: the shape is the one the cloud had when its box was first used, by get_AABB, a Grid or a PointHierarchy. C141_frozen: it never changes after that. C141_shape_partial: no batch shape set after the first use. C141_hierarchy: after set_batch_shape of a hierarchy the last level has the new shape, all other levels the old one, the first level that of an earlier box."
  },
  {
   "property": "C142",
   "status": "partial",
   "theorems": [
    "PC.C142_threads_differ",
    "PC.C142_zero_seed",
    "PC.C142_period",
    "PC.C142_stuck",
    "PC.C142_moves_false",
    "PC.C142_moves_partial",
    "PC.C142_next_second",
    "PC.C142_launches_false",
    "PC.C142_all_values",
    "PC.C142_ones",
    "PC.C142_outside"
   ],
   "note": "C142_threads_differ, C142_period, C142_all_values: as stated, for every seed but one. C142_stuck, C142_moves_false: for every second there is one thread number, 61 minus the second modulo 2^32, which draws 0 for ever. C142_moves_partial: no thread of a launch has this number while the clock is above 61 and below 2^32 less the number of threads. C142_launches_false, C142_next_second: a launch one second later gives thread t the numbers of thread t + 1. C142_ones, C142_outside: every other thread draws 1.0 exactly 128 times in a period and then writes one place before the range of its sample (compare C59)."
  },
  {
   "property": "C143",
   "status": "partial",
   "theorems": [
    "PC.C143_poisson",
    "PC.C143_poisson_tf",
    "PC.C143_poisson_gpu",
    "PC.C143_average_false"
   ],
   "note": "C143_poisson, C143_poisson_tf, C143_poisson_gpu: true for Poisson sampling, on both paths. C143_average_false: false for cell averages: the averages of two cells can fall into one cell of the grid of the averages, since the grid begins at the smallest average."
  },
  {
   "property": "C144",
   "status": "proved",
   "theorems": [
    "PC.C144_samples",
    "PC.C144_neighbors",
    "PC.C144_pairs",
    "PC.C144_averages"
   ],
   "note": "Proved for every Poisson sample in the sense of C25/C60 and for the cell averages of C29; C144_pairs for the TensorFlow search."
  },
  {
   "property": "C145",
   "status": "partial",
   "theorems": [
    "PC.C145_run_exists",
    "PC.C145_slots",
    "PC.C145_safe",
    "PC.C145_overrun",
    "PC.C145_collision",
    "PC.C145_invented",
    "PC.C145_equal_partial",
    "PC.C145_same",
    "PC.C145_false"
   ],
   "note": "C145_slots: what is written in terms of the two outcomes. C145_safe: no harm beyond missing pairs if the second test accepts no more for any centre. C145_equal_partial: as stated if the numbers agree for every centre, in particular for equal outcomes (C145_same: then this is C58). C145_overrun, C145_collision, C145_invented, C145_false: what happens otherwise, in every run: a write past the end, two centres writing one slot, or the pair (0, 0) returned though nobody found it. Whether the compiled kernels differ is outside of the model; the texts of both tests are the same."
  },
  {
   "property": "C146",
   "status": "partial",
   "theorems": [
    "PC.C146_atomic",
    "PC.C146_terminates",
    "PC.C146_can_go_on",
    "PC.C146_run_exists",
    "PC.C146_max",
    "PC.C146_returns_false"
   ],
   "note": "C146_atomic: any combining function, all schedules. C146_terminates: at most N (T + 1) + T accesses of the word for N threads when others change it T times; C146_can_go_on, C146_run_exists: no deadlock. C146_max: the largest number, for values with several bit patterns and not-a-number too. C146_returns_false: the header says the stored value is returned, the code returns the value before."
  },
  {
   "property": "C147",
   "status": "partial",
   "theorems": [
    "PC.C147_derivative",
    "PC.C147_smooth",
    "PC.C147_argument_false",
    "PC.C147_rectified"
   ],
   "note": "C147_derivative (left derivative at 0 for the rectifiers, where none exists), C147_smooth, C147_rectified. C147_argument_false: for ELU the backward method must be given the output of the forward pass, not its argument; the parameter name does not say so."
  },
  {
   "property": "C148",
   "status": "proved",
   "theorems": [
    "PC.C148_monotone",
    "PC.C148_filter",
    "PC.C148_compose",
    "PC.C148_disjoint",
    "PC.C148_max_pooling",
    "PC.C148_mean_may_fall"
   ],
   "note": "C148_monotone, C148_filter, C148_compose, C148_disjoint, C148_max_pooling. C148_mean_may_fall: the mean may fall. Symmetry is C23. Exact arithmetic."
  },
  {
   "property": "C149",
   "status": "partial",
   "theorems": [
    "PC.C149_zero_offsets",
    "PC.C149_zero_features",
    "PC.C149_weights_linear",
    "PC.C149_gaussian_differentiable",
    "PC.C149_linear_differentiable_partial",
    "PC.C149_linear_differentiable_false",
    "PC.C149_features_not_linear"
   ],
   "note": "C149_zero_offsets, C149_zero_features, C149_weights_linear: as stated. C149_gaussian_differentiable: as stated for Gaussian interpolation, in weights, offset weights and features together. Linear interpolation (the default): C149_linear_differentiable_partial away from kernel points and influence distances; C149_linear_differentiable_false: not where a neighbour lies on a displaced kernel point; every point that is its own neighbour lies on the first built-in kernel point when the offsets are zero. C149_features_not_linear: unlike the rigid layer (C41). What TensorFlow's differentiation rules return: C154."
  },
  {
   "property": "C150",
   "status": "partial",
   "theorems": [
    "PC.C150_tested",
    "PC.C150_box",
    "PC.C150_near",
    "PC.C150_work",
    "PC.C150_four_false"
   ],
   "note": "C150_tested characterises the examined points by adjacent cells, C150_box and C150_near by coordinates, C150_work bounds their number on a Poisson sample. In four dimensions a point can be examined twice (C150_four_false; the result then contains it twice, C56)."
  },
  {
   "property": "C151",
   "status": "partial",
   "theorems": [
    "PC.C151_rows",
    "PC.C151_pairs_partial",
    "PC.C151_outside",
    "PC.C151_run_exists",
    "PC.C151_pairs_false"
   ],
   "note": "Partial: with 2^31 pairs or more, pairs are written to negative positions, before the beginning of the tensor (C151_outside; C151_pairs_false: 46341 points within one radius). Below, C151_pairs_partial, which like C58 needs that the scan needs no more than one launch per level."
  },
  {
   "property": "C152",
   "status": "partial",
   "theorems": [
    "PC.C152_mcconv",
    "PC.C152_pointconv",
    "PC.C152_kpconv_partial",
    "PC.C152_kpconv_turned",
    "PC.C152_kpconv_false"
   ],
   "note": "Partial: false for KPConv with built-in kernel points (C152_kpconv_false): these are turned by random angles at construction and are not variables, so they are not stored; a restored rigid layer computes what the saved one computes on a turned cloud (C152_kpconv_turned). Proved for MCConv, PointConv and KPConv with custom kernel points. Assumes that save_weights stores all variables of the layers (trusted)."
  },
  {
   "property": "C153",
   "status": "partial",
   "theorems": [
    "PC.C153_mcconv",
    "PC.C153_mcconv_one",
    "PC.C153_pointconv",
    "PC.C153_conv1x1",
    "PC.C153_kpconv",
    "PC.C153_notebook_false",
    "PC.C153_notebook_raises"
   ],
   "note": "Partial: the closed formulas are proved; the notebook prints other numbers (C153_notebook_false), and its calls with one output feature raise, because the hidden size is passed as number of kernels (C153_notebook_raises)."
  },
  {
   "property": "C154",
   "status": "partial",
   "theorems": [
    "PC.C154_offset_weights_partial",
    "PC.C154_features_partial",
    "PC.C154_regularization_nan",
    "PC.C154_on_kernel_point_nan",
    "PC.C154_zero_features_nan",
    "PC.C154_repulsion_differentiable",
    "PC.C154_offset_weights_false",
    "PC.C154_regularization_false",
    "PC.C154_conv_weights",
    "PC.C154_motion_partial",
    "PC.C154_points_partial",
    "PC.C154_points_nan",
    "PC.C154_builtin_points_nan",
    "PC.C154_builtin_zero_features_nan",
    "PC.C154_points_false"
   ],
   "note": "Partial. C154_offset_weights_partial, C154_features_partial (deformable), C154_points_partial, C154_motion_partial (rigid, with a given neighbourhood; input and output points along every motion): as stated where no neighbour is exactly on a (displaced) kernel point and, for linear interpolation, none exactly at the influence distance. Elsewhere: C154_regularization_nan (and _false): the gradient of regularization_loss is never a number, for any layer and input, because of the norms on the diagonal that is replaced by zero only afterwards, although the repulsive loss is differentiable (C154_repulsion_differentiable). C154_on_kernel_point_nan, C154_zero_features_nan (and C154_offset_weights_false): not numbers where a neighbour is on a displaced kernel point, e.g. where all features around a point are zero. C154_points_nan, C154_builtin_points_nan (and C154_points_false): with the built-in kernel points and a cloud to itself no gradient with respect to a point is a number. C154_conv_weights: with respect to the convolution weights, always. TensorFlow's gradient functions are modelled (TfGrad), with exact arithmetic on finite values. The check of this gradient in kernel_point_conv_test.py does not run when the file is executed (it compares __name__ with '__main___')."
  },
  {
   "property": "C155",
   "status": "proved",
   "theorems": [
    "PC.C155_density",
    "PC.C155_single_precision",
    "PC.C155_search"
   ],
   "note": "C155_density: error in terms of the accuracy u of the arithmetic, the accuracy v of the exponential function and the bandwidth, with the literal 0.39894228 in place of 1/sqrt(2 pi) included. C155_single_precision: fl32 is rounding to nearest with 24 bits and gradual underflow (fl32_arith shows that it meets the assumptions); C155_search: for the neighbours found by the (exact) search; what rounding does to the search is C125. Overflow and the contraction of a multiplication and a subtraction into one instruction, which the compiler may do, are not modelled. C64_underflow: the bound of the compensated summation with underflow."
  },
  {
   "property": "C156",
   "status": "partial",
   "theorems": [
    "PC.C156_mlp_partial",
    "PC.C156_mcconv_partial",
    "PC.C156_bias_kink",
    "PC.C156_initial",
    "PC.C156_initial_false"
   ],
   "note": "Partial. C156_mcconv_partial: the whole layer on the GPU, where no two points are exactly one radius apart, unless they do not move relative to each other (C109) and no activation function is evaluated at its kink; C156_mlp_partial: the kernel MLPs alone. C156_bias_kink (one hidden layer, the default): with relu and leaky_relu the gradient of a bias is always the derivative from the left, and the loss is differentiable if and only if the gradients of the outputs at the kink add up to zero. C156_initial, C156_initial_false: this concerns every layer at its initial values, since biases are initialised with zeros and the kernel input of a point that is its own neighbour is zero. TensorFlow's gradient functions are modelled (MlpGrad), with exact arithmetic."
  },
  {
   "property": "C157",
   "status": "partial",
   "theorems": [
    "PC.C157_global_partial",
    "PC.C157_local_partial",
    "PC.C157_local_subgradient",
    "PC.C157_local_sum",
    "PC.C157_global_sum",
    "PC.C157_global_subgradient",
    "PC.C157_ties_false"
   ],
   "note": "Partial. C157_global_partial, C157_local_partial: for average pooling along every motion of the features, for maximum pooling along every motion in which the features that attain a maximum move together (in particular without ties). C157_local_subgradient, C157_global_subgradient (upstream gradients that are not negative) and C157_local_sum, C157_global_sum hold without such a condition. C157_ties_false: at a tie the maximum need not be differentiable. TensorFlow's gradient functions are modelled (PoolGrad), with exact arithmetic; gradients with respect to the points are zero, since the neighbourhoods are integers (C134 states that they jump)."
  },
  {
   "property": "C158",
   "status": "partial",
   "theorems": [
    "PC.C158_basis_partial",
    "PC.C158_pointconv_partial",
    "PC.C158_runs",
    "PC.C158_scale",
    "PC.C158_ties_false"
   ],
   "note": "Partial. C158_pointconv_partial: the whole layer on the GPU, where no two points are exactly one radius apart, unless they do not move relative to each other (C109), no activation function is evaluated at its kink, the density network does not vanish, and points of a neighbourhood that share the largest density keep a common density; C158_basis_partial: the two networks and the normalisation alone. C158_scale holds without these conditions, for positive densities. C158_ties_false: where two densities tie and move apart, the loss need not be differentiable. C158_runs: there are runs. TensorFlow's gradient functions are modelled (PcGrad), with exact arithmetic."
  },
  {
   "property": "C159",
   "status": "partial",
   "theorems": [
    "PC.C159_loss_partial",
    "PC.C159_unclipped",
    "PC.C159_flat",
    "PC.C159_rowSum",
    "PC.C159_false",
    "PC.C159_linear",
    "PC.C159_batchNorm",
    "PC.C159_head_partial",
    "PC.C159_bnSum",
    "PC.C159_deadBias",
    "PC.C159_shift",
    "PC.C159_deadBias_forward",
    "PC.C159_single"
   ],
   "note": "Partial. C159_loss_partial, C159_linear, C159_batchNorm, C159_head_partial: where no probability is exactly at a bound of the clipping and no activation function is evaluated at its kink. C159_unclipped: without clipping the gradient is softmax minus the label. C159_flat, C159_false: a model whose correct class has a probability below 1e-7 contributes no gradient at all, although it is classified wrongly. C159_bnSum, C159_deadBias, C159_shift: the gradients behind a batch normalisation add up to zero over the batch, so that the bias before it never gets a gradient and has no effect in training. C159_single: with a batch of one model no gradient passes a batch normalisation. TensorFlow's and Keras' functions are modelled (HeadGrad), with exact arithmetic."
  },
  {
   "property": "C160",
   "status": "partial",
   "theorems": [
    "PC.C160_conv_partial",
    "PC.C160_levels_partial",
    "PC.C160_small_partial",
    "PC.C160_runs"
   ],
   "note": "Partial. C160_small_partial: where no activation function is evaluated at its kink, no probability is at a bound of the clipping and no density network of PointConv vanishes; deformable KPConv layers left out; exact arithmetic; the levels of the hierarchy are given (sampling does not depend on trainable variables). C160_conv_partial, C160_levels_partial: one convolution and the loop over the levels. C160_runs: every run of the network is the forward pass of a training step."
  },
  {
   "property": "C161",
   "status": "partial",
   "theorems": [
    "PC.C161_block_partial",
    "PC.C161_levels_partial",
    "PC.C161_net40_partial",
    "PC.C161_runs"
   ],
   "note": "Partial. C161_net40_partial: where no activation function is evaluated at its kink, the maximum of each pooling is attained once, no probability is at a bound of the clipping and no density network of PointConv vanishes; deformable KPConv layers left out; exact arithmetic; the levels of the hierarchy are given. C161_block_partial, C161_levels_partial: one block and the loop over the levels. C161_runs: every run of the network is the forward pass of a training step."
  },
  {
   "property": "C162",
   "status": "partial",
   "theorems": [
    "PC.C162_adam_network",
    "PC.C162_step",
    "PC.C162_training",
    "PC.C162_scripts",
    "PC.C162_still",
    "PC.C162_average",
    "PC.C162_deadBias",
    "PC.C162_adamConst",
    "PC.C162_adam",
    "PC.C162_small_partial",
    "PC.C162_net40_partial",
    "PC.C162_adam_first",
    "PC.C162_tutorial_partial",
    "PC.C162_adamFirst_partial"
   ],
   "note": "Partial. C162_small_partial, C162_net40_partial: where no activation function is evaluated at its kink, maxima are attained once, no probability is at a bound of the clipping and no density network of PointConv vanishes; deformable KPConv left out; same dropout factors before and after the update; exact arithmetic; what RMSprop and Adam compute (Keras) is trusted to be as written. Complete for single numbers: C162_step, C162_training, C162_scripts (bounds), C162_average (the accumulator is the weighted average of the squared gradients), C162_still, C162_deadBias, C162_adam and C162_adamConst (tutorial). Tutorial: C162_tutorial_partial (RMSprop) and C162_adamFirst_partial, with C162_adam_first (the first update of Adam is one of RMSprop with rho = 0): the first update of the notebook lowers the loss of its batch; C162_adam_network: that update makes the first step of Adam with every number of every variable and changes nothing else; later updates of Adam use momentum and are not covered."
  },
  {
   "property": "C163",
   "status": "partial",
   "theorems": [
    "PC.C163_restore_partial",
    "PC.C163_layers"
   ],
   "note": "Partial. C163_restore_partial: both directions (no result is lost, no new one appears); for KPConv only if the new network has drawn the same random angles, since the turned kernel points are not variables (C152_kpconv_false). C163_layers: as stated. Exact arithmetic; what Keras stores is trusted to be the variables listed."
  },
  {
   "property": "C164",
   "status": "proved",
   "theorems": [
    "PC.C164_neighbors",
    "PC.C164_density",
    "PC.C164_mcconv",
    "PC.C164_pointconv",
    "PC.C164_kpconv",
    "PC.C164_local_pooling",
    "PC.C164_cell_average",
    "PC.C164_poisson",
    "PC.C164_hierarchy",
    "PC.C164_net40",
    "PC.C164_small",
    "PC.C164_shape",
    "PC.C164_tutorial"
   ],
   "note": "C164_mcconv, C164_pointconv, C164_kpconv, C164_local_pooling, C164_cell_average, C164_poisson, C164_hierarchy, C164_net40, C164_small, C164_tutorial, C164_shape. Positive cell sizes and a positive epsilon of the grid are assumed for cell averages, hierarchies and networks. Exact arithmetic: with rounding, moving changes the differences of coordinates."
  },
  {
   "property": "C165",
   "status": "partial",
   "theorems": [
    "PC.C165_loss",
    "PC.C165_from_levels",
    "PC.C165_net40",
    "PC.C165_small_from_levels",
    "PC.C165_small_partial",
    "PC.C165_tutorial_from_levels",
    "PC.C165_tutorial"
   ],
   "note": "C165_from_levels (any sampling, given levels with the same points), C165_net40 (cell averages, constant input features), C165_small_from_levels, C165_small_partial, C165_tutorial_from_levels and C165_tutorial (network of the notebook, any features), C165_loss. Partial: the small network is restricted to non-empty shapes that are small against the last cell size, without which it does not return a row per shape (C98); Poisson samples depend on the order of the points, for them only the theorems from the levels apply. Exact arithmetic: sums in another order round differently."
  },
  {
   "property": "C166",
   "status": "partial",
   "theorems": [
    "PC.C166_net40_partial",
    "PC.C166_small_partial",
    "PC.C166_tutorial_partial"
   ],
   "note": "C166_net40_partial (constant input features), C166_small_partial and C166_tutorial_partial (all input features). Partial: the steps are taken where no activation, clipping bound or maximum has a kink (as in C160, C161 and C168); the small network needs one point per shape on the last level (C98); dimensions 2 and 3; the levels of the two hierarchies hold the same points, as C164 and C165 show for cell averages. Exact arithmetic: sums in another order round differently."
  },
  {
   "property": "C167",
   "status": "partial",
   "theorems": [
    "PC.C167_resnet_partial",
    "PC.C167_spatial_partial",
    "PC.C167_whole",
    "PC.C167_whole_spatial",
    "PC.C167_shape_partial",
    "PC.C167_default_false",
    "PC.C167_spatial_shape_partial",
    "PC.C167_spatial_default_false"
   ],
   "note": "Partial. C167_default_false (PointResNet), C167_spatial_default_false (spatial bottleneck): without a neighbourhood argument the network builds one without sample cloud, whose centres are in the order of the grid, that is with descending batch ids; the rows of the first shape are computed with the neighbours of points of the last one and their own coordinates, so moving one shape changes the rows of another, for batches with sorted batch ids. C167_resnet_partial, C167_spatial_partial, C167_shape_partial, C167_spatial_shape_partial: as stated with neighbourhoods that are built with the points as explicit sample cloud and passed to the call. C167_whole, C167_whole_spatial: moving the whole batch by one vector changes nothing in either case."
  },
  {
   "property": "C168",
   "status": "partial",
   "theorems": [
    "PC.C168_levels_partial",
    "PC.C168_tutorial_partial",
    "PC.C168_runs"
   ],
   "note": "Partial: C168_tutorial_partial (with C168_levels_partial for the convolutions) for exact arithmetic, at values where no activation function is at its kink and no probability at a bound of the clipping of the loss. C168_runs: training steps exist for every run. Two or three dimensions."
  },
  {
   "property": "C169",
   "status": "partial",
   "theorems": [
    "PC.C169_radii",
    "PC.C169_runs",
    "PC.C169_tf_and_gpu_partial",
    "PC.C169_exist",
    "PC.C169_hierarchy",
    "PC.C169_levels",
    "PC.C169_gpu",
    "PC.C169_row",
    "PC.C169_equal_false"
   ],
   "note": "C169_radii and C169_runs for every set of points that is a Poisson sample; C169_tf_and_gpu_partial for the runs of the two implementations (the GPU for clouds that one pass of the kernel covers, as in C110), C169_exist: such runs exist; C169_hierarchy, C169_levels, C169_gpu for hierarchies. C169_row: exact bounds for a row of equally spaced points. C169_equal_false: in the setting of test_sampling_poisson_disk_on_uniform both three samples, as the test expects, and two are possible. Exact arithmetic."
  },
  {
   "property": "C170",
   "status": "partial",
   "theorems": [
    "PC.C170_poisson",
    "PC.C170_average_partial",
    "PC.C170_hierarchy",
    "PC.C170_tutorial",
    "PC.C170_tutorial_average_partial",
    "PC.C170_average_false",
    "PC.C170_residual",
    "PC.C170_small"
   ],
   "note": "Poisson sampling: C170_poisson, C170_hierarchy, C170_tutorial, for every border of the bounding boxes in either unit; C170_residual and C170_small for the networks of the scripts (Poisson sampling, or cell averages with the border in the new unit). C170_average_partial, C170_tutorial_average_partial: cell averages only if the border is given in the new unit; C170_average_false: with the constant border 1e-9 of the code two samples become one. PointConv with its first kernel layer divided by the factor (without that C74_pointconv_scale_false). GPU device, exact arithmetic."
  },
  {
   "property": "C171",
   "status": "partial",
   "theorems": [
    "PC.C171_poisson",
    "PC.C171_hierarchy",
    "PC.C171_residual",
    "PC.C171_tutorial",
    "PC.C171_small",
    "PC.C171_average_false"
   ],
   "note": "C171_poisson, C171_hierarchy, C171_tutorial, C171_residual, C171_small. Layers by C119; Gaussian kernel for the densities, GPU device, exact arithmetic. C171_average_false: a reflection turns a cloud with three cell averages into one with four."
  },
  {
   "property": "C172",
   "status": "partial",
   "theorems": [
    "PC.C172_residual",
    "PC.C172_average_false"
   ],
   "note": "C172_residual: for batches in which every shape occupies the same places (SameShapes), every logit array possible for one is possible for the other, and conversely. GPU device, exact arithmetic; sampled levels by C135_hierarchy. Partial: C172_average_false shows that the cell averages of two recordings of the same places differ."
  },
  {
   "property": "C173",
   "status": "proved",
   "theorems": [
    "PC.C173_copies",
    "PC.C173_meanwhile",
    "PC.C173_ends",
    "PC.C173_finite",
    "PC.C173_once"
   ],
   "note": "C173_copies, C173_meanwhile, C173_once, C173_ends, C173_finite. The three writes are single steps here, which justifies the model of store_sampled_pts in Verif/CudaSampling.lean, where they are one. Sequentially consistent memory; the test of pSelected (read-only memory) and the atomic addition are one step."
  },
  {
   "property": "C174",
   "status": "proved",
   "theorems": [
    "PC.C174_residual",
    "PC.C174_tutorial",
    "PC.C174_residual_product",
    "PC.C174_tutorial_product"
   ],
   "note": "C174_residual, C174_tutorial: two batches sharing a shape; C174_residual_product, C174_tutorial_product: the possible logits of a batch are the combinations of those of its shapes. GPU device, inference (in training the batch normalisation joins the shapes), exact arithmetic. modelnet40_small.py is left out, as it does not return one row per shape in general (C98_one_row_per_shape_false)."
  },
  {
   "property": "C175",
   "status": "proved",
   "theorems": [
    "PC.C175_tutorial",
    "PC.C175_residual",
    "PC.C175_small",
    "PC.C175_head_tutorial",
    "PC.C175_head_residual",
    "PC.C175_head_small",
    "PC.C175_convolutions_tutorial",
    "PC.C175_convolutions_small",
    "PC.C175_convolutions_residual"
   ],
   "note": "C175_tutorial, C175_residual, C175_small: the logits. C175_head_tutorial, C175_head_residual, C175_head_small: gradients of the head and of the features handed to it. C175_convolutions_tutorial, C175_convolutions_residual, C175_convolutions_small: gradients of all variables before the head. GPU device, exact arithmetic. For modelnet40_small.py one row of logits is assumed, as rows and shapes differ there (C98)."
  }
 ]
}