import Lean.Util.CollectAxioms
import Lean.Elab.Command
import Verif.Props.Activation
import Verif.Props.AdamTut
import Verif.Props.Async
import Verif.Props.AtomicMax
import Verif.Props.Barrier
import Verif.Props.BatchElem
import Verif.Props.Blocks
import Verif.Props.Blocks2
import Verif.Props.Boxes
import Verif.Props.CudaGrid
import Verif.Props.CudaLimit
import Verif.Props.CudaPdf
import Verif.Props.CudaPool
import Verif.Props.CudaProj
import Verif.Props.CudaSampling
import Verif.Props.CudaScan
import Verif.Props.CudaSearch
import Verif.Props.CudaStore
import Verif.Props.Deform
import Verif.Props.DivZero
import Verif.Props.ElemNet
import Verif.Props.ElemPoisson
import Verif.Props.Events
import Verif.Props.FindCuda
import Verif.Props.FloatSearch
import Verif.Props.FloatSpecial
import Verif.Props.GpuGrad
import Verif.Props.GpuHier
import Verif.Props.GpuLayer
import Verif.Props.GpuNet
import Verif.Props.GpuTut
import Verif.Props.Grid
import Verif.Props.HeadGrad
import Verif.Props.HierCover
import Verif.Props.HierPool
import Verif.Props.HierRead
import Verif.Props.Hierarchy
import Verif.Props.IO
import Verif.Props.IO2
import Verif.Props.Kernel
import Verif.Props.Layers
import Verif.Props.Layers2
import Verif.Props.Layers3
import Verif.Props.Layers4
import Verif.Props.Layers5
import Verif.Props.Local
import Verif.Props.MachineInt
import Verif.Props.MemSafe
import Verif.Props.Metrics
import Verif.Props.MlpGrad
import Verif.Props.Move
import Verif.Props.Move2
import Verif.Props.Move3
import Verif.Props.Neighbors
import Verif.Props.Neighbors2
import Verif.Props.NetGrad
import Verif.Props.NetGrad40
import Verif.Props.NetParams
import Verif.Props.Nets
import Verif.Props.Nets2
import Verif.Props.OneByOne
import Verif.Props.OneShape
import Verif.Props.OneShapeConv
import Verif.Props.OpChecks
import Verif.Props.OpShapes
import Verif.Props.Optim
import Verif.Props.OptimNet
import Verif.Props.OptimTut
import Verif.Props.Order
import Verif.Props.OrderGrad
import Verif.Props.OrderTut
import Verif.Props.PairTotal
import Verif.Props.Params
import Verif.Props.PcGrad
import Verif.Props.Pdf
import Verif.Props.Pipeline
import Verif.Props.Places
import Verif.Props.PointCloud
import Verif.Props.PointCloud2
import Verif.Props.PoolGrad
import Verif.Props.Pooling
import Verif.Props.Race
import Verif.Props.Relation
import Verif.Props.Repeat
import Verif.Props.Repeat2
import Verif.Props.Repro
import Verif.Props.Resample
import Verif.Props.Reuse
import Verif.Props.Rnd
import Verif.Props.Rotate
import Verif.Props.RoundPdf
import Verif.Props.RoundProj
import Verif.Props.SampleSize
import Verif.Props.Sampling
import Verif.Props.SearchAgree
import Verif.Props.SearchInt
import Verif.Props.Stable
import Verif.Props.TfGrad
import Verif.Props.Train
import Verif.Props.TrainLoop
import Verif.Props.Turn
import Verif.Props.TutGrad
import Verif.Props.Tutorial
import Verif.Props.Tutorial2
import Verif.Props.TwoTest
import Verif.Props.Units
import Verif.Props.Units2
import Verif.Props.Work

/-!
# Axiom audit

Generated by `tools/gen_manifest.py`.  Fails to compile if a property theorem
depends on an axiom other than `propext`, `Classical.choice`, `Quot.sound`.
-/

open Lean Elab Command in
run_cmd do
  for n in [
    `PC.C01_padded_roundtrip,
    `PC.C01_unpadded_roundtrip,
    `PC.C02_get_points_id,
    `PC.C02_partition,
    `PC.C03_index_error_false,
    `PC.C03_index_error_partial,
    `PC.C04_sizes_false,
    `PC.C04_sizes_partial,
    `PC.C04_sizes_noEmpty,
    `PC.C05_sizes_sum,
    `PC.C06_padded_view_partial,
    `PC.C06_padded_view_false,
    `PC.C07_max_num_points_false,
    `PC.C07_max_num_points_partial,
    `PC.C08_accepts_iff_partial,
    `PC.C08_rejected_unchanged,
    `PC.C08_content_unchanged,
    `PC.C08_tuple_row_major,
    `PC.C08_tuple_outside,
    `PC.C08_accepts_false,
    `PC.C09_validation,
    `PC.C09_error_kind,
    `PC.C09_batch_size,
    `PC.C10_feature_roundtrip,
    `PC.C10_feature_roundtrip_padded,
    `PC.C10_return_sorted,
    `PC.C10_plain,
    `PC.C11_box_contains_and_tight,
    `PC.C11_box_contains_eps0,
    `PC.C12_diameter_dominates,
    `PC.C13_keys_identify,
    `PC.C13_key_formula,
    `PC.C13_keys_eps0_false,
    `PC.C13_same_cell_same_key_partial,
    `PC.C14_sorted_is_permutation,
    `PC.C14_sorted_order,
    `PC.C14_batch_contiguous,
    `PC.C15_access_structure_exact,
    `PC.C15_access_structure_eps0_false,
    `PC.C16_search_sound,
    `PC.C17_search_complete,
    `PC.C17_gpu_exact,
    `PC.C17_cpu_raises,
    `PC.C17_cpu_self_search_false,
    `PC.C17_cpu_self_never_returns,
    `PC.C17_cpu_self_never_returns_eps0,
    `PC.C18_smaller_radius_false,
    `PC.C18_other_dims_partial,
    `PC.C19_ranges_partition,
    `PC.C20_original_ids,
    `PC.C20_compute_neighborhoods,
    `PC.C21_brute_force_exact,
    `PC.C22_ranges_false,
    `PC.C22_ranges_partial,
    `PC.C23_transpose,
    `PC.C23_transposed_by_index,
    `PC.C23_transposed_ranges,
    `PC.C23_self,
    `PC.C23_self_original_ids_false,
    `PC.C24_poisson_terminates,
    `PC.C24_poisson_eps0_false,
    `PC.C25_poisson_separated,
    `PC.C26_poisson_covers,
    `PC.C26_poisson_nonempty,
    `PC.C27_sample_ids,
    `PC.C28_helpers_false,
    `PC.C28_sample_modes_partial,
    `PC.C29_cell_average,
    `PC.C29_cell_average_eps0_false,
    `PC.C30_mass_and_location,
    `PC.C30_cell_average,
    `PC.C31_hierarchy_well_formed,
    `PC.C31_any_two_levels,
    `PC.C31_constructor_succeeds,
    `PC.C32_completion_false,
    `PC.C32_completion_partial,
    `PC.C33_density_positive,
    `PC.C33_pdf_entries_positive,
    `PC.C33_gauss,
    `PC.C33_eps0_false,
    `PC.C34_density_formula,
    `PC.C34_translation,
    `PC.C34_scaling,
    `PC.C34_relabelling,
    `PC.C35_first_query_wins,
    `PC.C35_compute_partial,
    `PC.C35_after_failures_partial,
    `PC.C35_get_pdf_false,
    `PC.C36_normalized,
    `PC.C36_unit_mass,
    `PC.C37_density_estimation_false,
    `PC.C37_no_pdf_partial,
    `PC.C37_gathers,
    `PC.C38_basis_proj,
    `PC.C38_order_independent,
    `PC.C38_empty,
    `PC.C38_linear_features,
    `PC.C38_linear_basis,
    `PC.C38_geometric,
    `PC.C39_padded_count,
    `PC.C39_padding,
    `PC.C40_linear,
    `PC.C40_gaussian,
    `PC.C40_monotone,
    `PC.C40_strict,
    `PC.C40_given_influence,
    `PC.C40_default_false,
    `PC.C41_mcconv_formula,
    `PC.C41_kernel_mlp,
    `PC.C41_mcconv_returns,
    `PC.C41_mcconv_translation,
    `PC.C41_mcconv_linear,
    `PC.C41_pointconv_formula,
    `PC.C41_pointconv_returns,
    `PC.C41_pointconv_translation,
    `PC.C41_pointconv_linear,
    `PC.C41_kpconv_formula,
    `PC.C41_kpconv_returns,
    `PC.C41_kpconv_translation,
    `PC.C41_kpconv_linear,
    `PC.C42_constructible,
    `PC.C42_value_error,
    `PC.C42_channel_blocks,
    `PC.C42_only_own_mlp,
    `PC.C42_channel_formula,
    `PC.C43_global_max,
    `PC.C43_local_max,
    `PC.C43_monotone,
    `PC.C43_monotone_global,
    `PC.C43_order,
    `PC.C43_order_global,
    `PC.C44_global_mean,
    `PC.C44_local_mean,
    `PC.C44_between,
    `PC.C44_constant,
    `PC.C44_linear,
    `PC.C44_returns,
    `PC.C45_float_radius_raises,
    `PC.C45_vector_radius_partial,
    `PC.C45_float_radius_false,
    `PC.C46_pointwise,
    `PC.C46_affine,
    `PC.C46_reorder,
    `PC.C46_weights,
    `PC.C47_dot,
    `PC.C47_isometry,
    `PC.C47_orientation,
    `PC.C48_distinct_partial,
    `PC.C48_unsupported,
    `PC.C48_fifteen,
    `PC.C48_distinct_false,
    `PC.C48_thirteen,
    `PC.C49_table_partial,
    `PC.C49_no_final_newline,
    `PC.C49_no_features_raises,
    `PC.C49_final_newline_false,
    `PC.C49_three_columns_false,
    `PC.C49_rows_misaligned,
    `PC.C49_bad_path,
    `PC.C50_no_limit_empty,
    `PC.C50_limit_partial,
    `PC.C50_unlimited_false,
    `PC.C51_batch_partial,
    `PC.C51_shape_rejected,
    `PC.C51_point_dimension_raises,
    `PC.C51_point_dimension_false,
    `PC.C51_point_cloud,
    `PC.C52_default_rows,
    `PC.C52_sorted_partial,
    `PC.C52_explicit_partial,
    `PC.C52_order_partial,
    `PC.C52_returns,
    `PC.C52_aligned_false,
    `PC.C53_encode,
    `PC.C53_decode,
    `PC.C53_encode_decode,
    `PC.C53_ds_index,
    `PC.C54_table,
    `PC.C54_equals_tf,
    `PC.C54_schedule_independent,
    `PC.C54_no_conflict,
    `PC.C54_in_bounds,
    `PC.C55_range,
    `PC.C56_sound,
    `PC.C56_complete,
    `PC.C56_no_duplicates_partial,
    `PC.C56_no_duplicates_false,
    `PC.C57_scan_partial,
    `PC.C57_run_exists,
    `PC.C57_total,
    `PC.C57_scan_false,
    `PC.C58_find_neighbors_false,
    `PC.C58_counts,
    `PC.C58_run_exists,
    `PC.C58_store_partial,
    `PC.C58_store_false,
    `PC.C58_find_neighbors_partial,
    `PC.C59_counters,
    `PC.C59_passes_false,
    `PC.C59_limit_partial,
    `PC.C59_below_limit,
    `PC.C59_race_false,
    `PC.C59_seed_false,
    `PC.C59_find_neighbors_partial,
    `PC.C60_cells_apart,
    `PC.C60_poisson,
    `PC.C60_run_exists,
    `PC.C61_cell_average,
    `PC.C61_schedule_independent,
    `PC.C61_regular_cells,
    `PC.C61_equals_tf,
    `PC.C61_run_exists,
    `PC.C62_forward_equals_tf,
    `PC.C62_adjoint,
    `PC.C62_gradient,
    `PC.C63_gradient,
    `PC.C64_kahan_exact,
    `PC.C64_order,
    `PC.C64_rounding,
    `PC.C64_underflow,
    `PC.C65_broadcast,
    `PC.C66_padded_set_batch_shape_false,
    `PC.C66_set_batch_shape_partial,
    `PC.C67_sizes_checked_false,
    `PC.C67_sizes_partial,
    `PC.C68_neighborhood_partial,
    `PC.C68_index_range,
    `PC.C68_between_levels_false,
    `PC.C69_all_transposed_false,
    `PC.C69_transposed_partial,
    `PC.C70_set_batch_shape_partial,
    `PC.C70_levels,
    `PC.C70_set_batch_shape_false,
    `PC.C71_get_points,
    `PC.C72_density_inside,
    `PC.C73_mcconv_order,
    `PC.C73_pointconv_order,
    `PC.C73_kpconv_order,
    `PC.C74_mcconv_scale,
    `PC.C74_kpconv_scale,
    `PC.C74_pointconv_scale_false,
    `PC.C75_surplus_ignored,
    `PC.C75_missing_raises,
    `PC.C75_rows,
    `PC.C75_custom_kernel_points_false,
    `PC.C75_matching_partial,
    `PC.C76_formula,
    `PC.C76_rigid,
    `PC.C76_nonneg,
    `PC.C76_finite_partial,
    `PC.C76_empty_blowup,
    `PC.C76_finite_false,
    `PC.C77_padded_partial,
    `PC.C77_shape,
    `PC.C77_segmented_raises,
    `PC.C77_padded_false,
    `PC.C78_lattice,
    `PC.C78_unit_cube,
    `PC.C79_bind,
    `PC.C79_conv1x1_keywords,
    `PC.C79_layer_types_partial,
    `PC.C79_kpconv_raises,
    `PC.C79_kpconv_network,
    `PC.C79_bottleneck_raises,
    `PC.C79_layer_types_false,
    `PC.C79_kpconv_spatial,
    `PC.C80_mesh_batch,
    `PC.C80_shape_product,
    `PC.C81_same_keys,
    `PC.C81_cell,
    `PC.C81_kernel,
    `PC.C81_same_keys_false,
    `PC.C82_always_last,
    `PC.C82_every_slot_false,
    `PC.C82_first_arrivals,
    `PC.C83_pipeline_partial,
    `PC.C84_constant_partial,
    `PC.C84_num_points_bandwidth,
    `PC.C84_modes_false,
    `PC.C85_constant_local_partial,
    `PC.C85_num_points_false,
    `PC.C86_uniform_passes,
    `PC.C86_shared_memory,
    `PC.C86_output_bounds,
    `PC.C87_default_rows,
    `PC.C87_sorted_partial,
    `PC.C87_explicit_partial,
    `PC.C87_transposed_reuse,
    `PC.C87_returns,
    `PC.C87_aligned_false,
    `PC.C88_names,
    `PC.C88_labels,
    `PC.C88_unknown,
    `PC.C88_same_label,
    `PC.C89_rows,
    `PC.C89_first_run,
    `PC.C89_history_partial,
    `PC.C89_cut_partial,
    `PC.C89_quick_spoils,
    `PC.C89_killed_while_writing,
    `PC.C89_cache_false,
    `PC.C90_pass,
    `PC.C90_augmentation,
    `PC.C91_same_batches,
    `PC.C91_labels_repeat,
    `PC.C91_divisible_partial,
    `PC.C91_all_models_false,
    `PC.C91_unused,
    `PC.C92_calls,
    `PC.C93_learning_rate,
    `PC.C93_monotone,
    `PC.C94_mcconv,
    `PC.C94_pointconv,
    `PC.C94_kpconv,
    `PC.C94_local_pooling,
    `PC.C94_global_pooling,
    `PC.C94_conv1x1,
    `PC.C94_cell_average,
    `PC.C94_hierarchy,
    `PC.C94_one_by_one,
    `PC.C94_poisson,
    `PC.C94_poisson_hierarchy,
    `PC.C95_never_empty_partial,
    `PC.C95_max_pooling_partial,
    `PC.C95_never_empty_false,
    `PC.C96_poisson,
    `PC.C96_cell_average_partial,
    `PC.C96_cell_average_false,
    `PC.C97_conv_formula,
    `PC.C97_head_formula,
    `PC.C97_from_levels,
    `PC.C97_logits_of_a_shape,
    `PC.C97_returns,
    `PC.C98_head_formula,
    `PC.C98_rows,
    `PC.C98_from_levels,
    `PC.C98_one_row_per_shape_partial,
    `PC.C98_logits_of_a_shape_partial,
    `PC.C98_returns,
    `PC.C98_one_row_per_shape_false,
    `PC.C99_input_features_false,
    `PC.C100_tf_key_modulo,
    `PC.C100_tf_exact_partial,
    `PC.C100_cuda_exact,
    `PC.C100_cuda_table_index,
    `PC.C100_tf_false,
    `PC.C101_division_exact,
    `PC.C101_table_index,
    `PC.C101_needs_float64,
    `PC.C102_cuda_in_range,
    `PC.C102_tf_partial,
    `PC.C102_exact,
    `PC.C102_tf_false,
    `PC.C102_tf_batches_false,
    `PC.C103_build_reads,
    `PC.C103_search_reads,
    `PC.C103_count_bounds,
    `PC.C103_store_bounds,
    `PC.C103_limit_false,
    `PC.C103_pdf_bounds,
    `PC.C103_average_bounds,
    `PC.C103_poisson_bounds,
    `PC.C104_grid,
    `PC.C104_grid_shape,
    `PC.C104_cell_sizes,
    `PC.C104_search,
    `PC.C104_pdf,
    `PC.C104_pdf_grads,
    `PC.C104_sampling,
    `PC.C104_dims_false,
    `PC.C104_empty_false,
    `PC.C104_batches_false,
    `PC.C104_rank_false,
    `PC.C105_projection,
    `PC.C105_projection_grads,
    `PC.C105_mcconv,
    `PC.C105_features_false,
    `PC.C105_basis_false,
    `PC.C105_kpconv,
    `PC.C105_network,
    `PC.C106_exact,
    `PC.C106_find_neighbors_partial,
    `PC.C106_last_sample_lost,
    `PC.C106_counts_false,
    `PC.C106_abort,
    `PC.C106_table_zero,
    `PC.C106_table_false,
    `PC.C106_run_exists,
    `PC.C107_tf_limit_unused,
    `PC.C107_tf_in_cuda,
    `PC.C107_agree_partial,
    `PC.C107_radii_false,
    `PC.C107_small_radius_false,
    `PC.C107_limit_false,
    `PC.C108_max_pool,
    `PC.C108_mean_pool_partial,
    `PC.C108_mcconv_formula_partial,
    `PC.C108_mcconv_partial,
    `PC.C108_pointconv_partial,
    `PC.C108_kpconv_partial,
    `PC.C108_mcconv_runs,
    `PC.C108_pointconv_runs,
    `PC.C108_kpconv_runs,
    `PC.C108_mean_pool_false,
    `PC.C109_mcconv_partial,
    `PC.C109_pointconv_partial,
    `PC.C109_kpconv_partial,
    `PC.C109_runs,
    `PC.C109_kpconv_false,
    `PC.C110_poisson_results,
    `PC.C110_poisson_refines_partial,
    `PC.C110_average_same,
    `PC.C110_poisson_hierarchy_partial,
    `PC.C110_average_hierarchy_partial,
    `PC.C110_sample_runs,
    `PC.C110_runs,
    `PC.C110_poisson_refines_false,
    `PC.C111_logits_partial,
    `PC.C111_poisson_partial,
    `PC.C111_average_partial,
    `PC.C111_small_logits_partial,
    `PC.C111_small_poisson_partial,
    `PC.C111_small_average_partial,
    `PC.C111_runs,
    `PC.C111_small_runs,
    `PC.C111_logits_of_a_shape_partial,
    `PC.C112_points_stay,
    `PC.C112_sizes_partial,
    `PC.C112_points_partial,
    `PC.C112_constructor,
    `PC.C112_limit_false,
    `PC.C113_keys,
    `PC.C113_ds,
    `PC.C113_find,
    `PC.C113_sampling,
    `PC.C113_pdf,
    `PC.C113_pdf_grads,
    `PC.C113_proj,
    `PC.C113_proj_grads_partial,
    `PC.C113_proj_grads_false,
    `PC.C113_pdf_backward,
    `PC.C113_proj_backward,
    `PC.C114_mcconv,
    `PC.C114_pointconv_partial,
    `PC.C114_fresh_network,
    `PC.C114_pointconv_fresh_partial,
    `PC.C114_pointconv_false,
    `PC.C115_layouts_partial,
    `PC.C115_layouts_false,
    `PC.C116_mcconv,
    `PC.C116_pointconv,
    `PC.C116_kpconv_partial,
    `PC.C116_kpconv_local,
    `PC.C116_kpconv_false,
    `PC.C117_reuse_partial,
    `PC.C117_no_sample_sorted,
    `PC.C117_no_sample_partial,
    `PC.C117_no_sample_false,
    `PC.C117_bandwidth_false,
    `PC.C118_poisson,
    `PC.C118_average,
    `PC.C118_inside,
    `PC.C118_poisson_radii,
    `PC.C118_gpu,
    `PC.C119_mcconv,
    `PC.C119_pointconv,
    `PC.C119_kpconv,
    `PC.C119_filters_must_turn,
    `PC.C120_used,
    `PC.C120_validation_partial,
    `PC.C120_returns,
    `PC.C120_all_models_false,
    `PC.C120_no_batch,
    `PC.C121_own_entry,
    `PC.C121_atomic,
    `PC.C121_keys,
    `PC.C121_average,
    `PC.C121_pdf,
    `PC.C121_build_grid,
    `PC.C121_scan,
    `PC.C121_propagate,
    `PC.C121_count,
    `PC.C121_count_keys,
    `PC.C121_compact,
    `PC.C121_store,
    `PC.C121_store_limited_false,
    `PC.C121_store_limited_partial,
    `PC.C121_poisson,
    `PC.C121_proj,
    `PC.C121_proj_grads,
    `PC.C122_eager,
    `PC.C122_launches,
    `PC.C122_average,
    `PC.C122_sampling,
    `PC.C122_find_kernels_partial,
    `PC.C122_find_limit_partial,
    `PC.C122_find_partial,
    `PC.C122_find_false,
    `PC.C123_scan,
    `PC.C123_count_keys,
    `PC.C123_proj,
    `PC.C123_proj_grads,
    `PC.C123_count_partial,
    `PC.C123_count_false,
    `PC.C123_propagate_partial,
    `PC.C123_propagate_false,
    `PC.C124_events_partial,
    `PC.C124_events_false,
    `PC.C124_launches,
    `PC.C125_find_neighbors_partial,
    `PC.C125_exists,
    `PC.C125_find_neighbors_false,
    `PC.C126_finite,
    `PC.C126_find_neighbors_partial,
    `PC.C126_find_neighbors_false,
    `PC.C127_projection,
    `PC.C127_density,
    `PC.C127_gradient_false,
    `PC.C127_layer_false,
    `PC.C128_projection,
    `PC.C128_layer,
    `PC.C128_runs_agree,
    `PC.C128_gradient,
    `PC.C129_head_formula,
    `PC.C129_one_row_per_shape,
    `PC.C129_logits_of_a_shape,
    `PC.C129_returns,
    `PC.C130_pairing,
    `PC.C130_training,
    `PC.C130_calls,
    `PC.C130_subset_partial,
    `PC.C130_subset_false,
    `PC.C131_rates,
    `PC.C131_first_model_partial,
    `PC.C131_next_model,
    `PC.C131_same_rates_false,
    `PC.C132_results,
    `PC.C132_checkpoints_partial,
    `PC.C132_available,
    `PC.C132_final_partial,
    `PC.C132_stale_false,
    `PC.C132_final_false,
    `PC.C133_resume_partial,
    `PC.C133_overwrites,
    `PC.C133_resume_false,
    `PC.C134_mcconv_partial,
    `PC.C134_pointconv_partial,
    `PC.C134_kpconv_partial,
    `PC.C134_pool_partial,
    `PC.C134_pool_features,
    `PC.C134_jump_false,
    `PC.C135_mcconv,
    `PC.C135_pointconv_partial,
    `PC.C135_pool,
    `PC.C135_global_pool,
    `PC.C135_kpconv_partial,
    `PC.C135_kpconv_false,
    `PC.C135_poisson,
    `PC.C135_average,
    `PC.C135_hierarchy,
    `PC.C135_tutorial,
    `PC.C136_mcconv,
    `PC.C136_pointconv,
    `PC.C136_pool,
    `PC.C136_chain,
    `PC.C136_kpconv,
    `PC.C136_two_radii,
    `PC.C137_accepts,
    `PC.C137_accepted_partial,
    `PC.C137_accepted_false,
    `PC.C137_at_least,
    `PC.C138_found,
    `PC.C138_complete_partial,
    `PC.C138_no_stop,
    `PC.C138_candidates,
    `PC.C138_complete_false,
    `PC.C138_cudnn_false,
    `PC.C138_cudnn,
    `PC.C138_header,
    `PC.C138_zero,
    `PC.C138_tensorrt,
    `PC.C139_root_partial,
    `PC.C139_root_false,
    `PC.C139_list,
    `PC.C139_total,
    `PC.C140_logits_partial,
    `PC.C140_poisson_partial,
    `PC.C140_average_partial,
    `PC.C140_runs,
    `PC.C141_values,
    `PC.C141_frozen,
    `PC.C141_shape_false,
    `PC.C141_shape_partial,
    `PC.C141_hierarchy,
    `PC.C141_hierarchy_runs,
    `PC.C142_threads_differ,
    `PC.C142_zero_seed,
    `PC.C142_period,
    `PC.C142_stuck,
    `PC.C142_moves_false,
    `PC.C142_moves_partial,
    `PC.C142_next_second,
    `PC.C142_launches_false,
    `PC.C142_all_values,
    `PC.C142_ones,
    `PC.C142_outside,
    `PC.C143_poisson,
    `PC.C143_poisson_tf,
    `PC.C143_poisson_gpu,
    `PC.C143_average_false,
    `PC.C144_samples,
    `PC.C144_neighbors,
    `PC.C144_pairs,
    `PC.C144_averages,
    `PC.C145_run_exists,
    `PC.C145_slots,
    `PC.C145_safe,
    `PC.C145_overrun,
    `PC.C145_collision,
    `PC.C145_invented,
    `PC.C145_equal_partial,
    `PC.C145_same,
    `PC.C145_false,
    `PC.C146_atomic,
    `PC.C146_terminates,
    `PC.C146_can_go_on,
    `PC.C146_run_exists,
    `PC.C146_max,
    `PC.C146_returns_false,
    `PC.C147_derivative,
    `PC.C147_smooth,
    `PC.C147_argument_false,
    `PC.C147_rectified,
    `PC.C148_monotone,
    `PC.C148_filter,
    `PC.C148_compose,
    `PC.C148_disjoint,
    `PC.C148_max_pooling,
    `PC.C148_mean_may_fall,
    `PC.C149_zero_offsets,
    `PC.C149_zero_features,
    `PC.C149_weights_linear,
    `PC.C149_gaussian_differentiable,
    `PC.C149_linear_differentiable_partial,
    `PC.C149_linear_differentiable_false,
    `PC.C149_features_not_linear,
    `PC.C150_tested,
    `PC.C150_box,
    `PC.C150_near,
    `PC.C150_work,
    `PC.C150_four_false,
    `PC.C151_rows,
    `PC.C151_pairs_partial,
    `PC.C151_outside,
    `PC.C151_run_exists,
    `PC.C151_pairs_false,
    `PC.C152_mcconv,
    `PC.C152_pointconv,
    `PC.C152_kpconv_partial,
    `PC.C152_kpconv_turned,
    `PC.C152_kpconv_false,
    `PC.C153_mcconv,
    `PC.C153_mcconv_one,
    `PC.C153_pointconv,
    `PC.C153_conv1x1,
    `PC.C153_kpconv,
    `PC.C153_notebook_false,
    `PC.C153_notebook_raises,
    `PC.C154_offset_weights_partial,
    `PC.C154_features_partial,
    `PC.C154_regularization_nan,
    `PC.C154_on_kernel_point_nan,
    `PC.C154_zero_features_nan,
    `PC.C154_repulsion_differentiable,
    `PC.C154_offset_weights_false,
    `PC.C154_regularization_false,
    `PC.C154_conv_weights,
    `PC.C154_motion_partial,
    `PC.C154_points_partial,
    `PC.C154_points_nan,
    `PC.C154_builtin_points_nan,
    `PC.C154_builtin_zero_features_nan,
    `PC.C154_points_false,
    `PC.C155_density,
    `PC.C155_single_precision,
    `PC.C155_search,
    `PC.C156_mlp_partial,
    `PC.C156_mcconv_partial,
    `PC.C156_bias_kink,
    `PC.C156_initial,
    `PC.C156_initial_false,
    `PC.C157_global_partial,
    `PC.C157_local_partial,
    `PC.C157_local_subgradient,
    `PC.C157_local_sum,
    `PC.C157_global_sum,
    `PC.C157_global_subgradient,
    `PC.C157_ties_false,
    `PC.C158_basis_partial,
    `PC.C158_pointconv_partial,
    `PC.C158_runs,
    `PC.C158_scale,
    `PC.C158_ties_false,
    `PC.C159_loss_partial,
    `PC.C159_unclipped,
    `PC.C159_flat,
    `PC.C159_rowSum,
    `PC.C159_false,
    `PC.C159_linear,
    `PC.C159_batchNorm,
    `PC.C159_head_partial,
    `PC.C159_bnSum,
    `PC.C159_deadBias,
    `PC.C159_shift,
    `PC.C159_deadBias_forward,
    `PC.C159_single,
    `PC.C160_conv_partial,
    `PC.C160_levels_partial,
    `PC.C160_small_partial,
    `PC.C160_runs,
    `PC.C161_block_partial,
    `PC.C161_levels_partial,
    `PC.C161_net40_partial,
    `PC.C161_runs,
    `PC.C162_adam_network,
    `PC.C162_step,
    `PC.C162_training,
    `PC.C162_scripts,
    `PC.C162_still,
    `PC.C162_average,
    `PC.C162_deadBias,
    `PC.C162_adamConst,
    `PC.C162_adam,
    `PC.C162_small_partial,
    `PC.C162_net40_partial,
    `PC.C162_adam_first,
    `PC.C162_tutorial_partial,
    `PC.C162_adamFirst_partial,
    `PC.C163_restore_partial,
    `PC.C163_layers,
    `PC.C164_neighbors,
    `PC.C164_density,
    `PC.C164_mcconv,
    `PC.C164_pointconv,
    `PC.C164_kpconv,
    `PC.C164_local_pooling,
    `PC.C164_cell_average,
    `PC.C164_poisson,
    `PC.C164_hierarchy,
    `PC.C164_net40,
    `PC.C164_small,
    `PC.C164_shape,
    `PC.C164_tutorial,
    `PC.C165_loss,
    `PC.C165_from_levels,
    `PC.C165_net40,
    `PC.C165_small_from_levels,
    `PC.C165_small_partial,
    `PC.C165_tutorial_from_levels,
    `PC.C165_tutorial,
    `PC.C166_net40_partial,
    `PC.C166_small_partial,
    `PC.C166_tutorial_partial,
    `PC.C167_resnet_partial,
    `PC.C167_spatial_partial,
    `PC.C167_whole,
    `PC.C167_whole_spatial,
    `PC.C167_shape_partial,
    `PC.C167_default_false,
    `PC.C167_spatial_shape_partial,
    `PC.C167_spatial_default_false,
    `PC.C168_levels_partial,
    `PC.C168_tutorial_partial,
    `PC.C168_runs,
    `PC.C169_radii,
    `PC.C169_runs,
    `PC.C169_tf_and_gpu_partial,
    `PC.C169_exist,
    `PC.C169_hierarchy,
    `PC.C169_levels,
    `PC.C169_gpu,
    `PC.C169_row,
    `PC.C169_equal_false,
    `PC.C170_poisson,
    `PC.C170_average_partial,
    `PC.C170_hierarchy,
    `PC.C170_tutorial,
    `PC.C170_tutorial_average_partial,
    `PC.C170_average_false,
    `PC.C170_residual,
    `PC.C170_small,
    `PC.C171_poisson,
    `PC.C171_hierarchy,
    `PC.C171_residual,
    `PC.C171_tutorial,
    `PC.C171_small,
    `PC.C171_average_false,
    `PC.C172_residual,
    `PC.C172_average_false,
    `PC.C173_copies,
    `PC.C173_meanwhile,
    `PC.C173_ends,
    `PC.C173_finite,
    `PC.C173_once,
    `PC.C174_residual,
    `PC.C174_tutorial,
    `PC.C174_residual_product,
    `PC.C174_tutorial_product,
    `PC.C175_tutorial,
    `PC.C175_residual,
    `PC.C175_small,
    `PC.C175_head_tutorial,
    `PC.C175_head_residual,
    `PC.C175_head_small,
    `PC.C175_convolutions_tutorial,
    `PC.C175_convolutions_small,
    `PC.C175_convolutions_residual] do
    unless (← getEnv).contains n do
      throwError "missing theorem {n}"
    let ax ← Lean.collectAxioms n
    for a in ax do
      unless a ∈ [``propext, ``Classical.choice, ``Quot.sound] do
        throwError "{n} depends on {a}"
    logInfo m!"{n}: {ax.toList}"
