{
"C01": {
"note": "For every call history after construction and every max_num_points argument."
},
"C03": {
"note": "The claim is false: the code tests id > batch_size only (C03_index_error_false); proved: which ids raise, and that the others yield no points."
},
"C04": {
"note": "False with empty batch elements (C04_sizes_false); proved without empty elements for every call history, and exact description in general."
},
"C06": {
"note": "False with empty batch elements (C06_padded_view_false); proved without, for histories that do not pass max_num_points."
},
"C07": {
"note": "False: the first call fixes the limit (C07_max_num_points_false); proved when no earlier padded request was made."
},
"C08": {
"note": "Acceptance needs no empty element (C08_accepts_false otherwise); the remaining parts are proved in full."
},
"C66": {
"note": "False for clouds built from padded input; proved for clouds given by batch ids."
},
"C67": {
"note": "False: sum(sizes) is never compared with N; proved what holds when they agree."
},
"C11": {
"note": "Exact arithmetic with eps > 0; also containment when float32 absorbs eps (eps = 0)."
},
"C13": {
"note": "Proved in full for eps > 0 (exact arithmetic); false when float32 rounding absorbs the 1e-9 margin (C13_keys_eps0_false), where only same cell -> same key remains."
},
"C15": {
"note": "Proved in full for eps > 0 on both devices; false when float32 rounding absorbs the margin (C15_access_structure_eps0_false)."
},
"C17": {
"status": "partial",
"note": "Complete whenever the search returns; always returns (and is exact) on the GPU. On the CPU it raises as soon as a centre is in the last row/column of cells (C17_cpu_raises), so the self search does not return (C17_cpu_self_*)."
},
"C18": {
"note": "False (C18_smaller_radius_false). Proved: exact when only the first two cell sizes agree with the radii, other dimensions arbitrary."
},
"C22": {
"note": "False for centres without neighbours (C22_ranges_false); proved otherwise, plus the exact description in general."
},
"C23": {
"note": "All parts proved on the pairs in grid order / between two clouds; the original ids of a self neighbourhood mix two index spaces and are not symmetric (C23_self_original_ids_false)."
},
"C24": {
"note": "Proved for eps > 0 and every sequence of random choices; when float32 absorbs the margin the loop can run for ever (C24_poisson_eps0_false)."
},
"C28": {
"note": "False (C28_helpers_false): the helpers pass swapped modes and reject scalars; proved for sample()."
},
"C29": {
"note": "Proved in full for eps > 0; when float32 absorbs the margin batch elements are mixed (C29_cell_average_eps0_false)."
},
"C31": {
"note": "For eps > 0 and positive cell sizes, all random choices; the GPU constructor is shown to succeed."
},
"C32": {
"note": "False: the first value is repeated (C32_completion_false); exact behaviour proved."
},
"C68": {
"note": "False: the stored neighbourhoods are self neighbourhoods of level i (C68_between_levels_false), and indices are limited to the number of cell sizes; proved what is returned."
},
"C69": {
"note": "False without index (C69_all_transposed_false: AttributeError); single index proved."
},
"C70": {
"note": "False with empty batch elements (C70_set_batch_shape_false); proved without, for all call histories."
},
"C33": {
"note": "Proved in full for eps > 0, any positive kernel, radii and bandwidths (C33_gauss: the Gaussian), for self neighbourhoods and neighbourhoods between clouds; false when float32 absorbs the margin (C33_eps0_false)."
},
"C34": {
"note": "Formula, translation, scaling and relabelling invariance for every kernel."
},
"C35": {
"note": "False: the first density is cached for ever (C35_first_query_wins, C35_get_pdf_false); proved: what is returned after explicit compute_pdf, on new objects and after failed calls."
},
"C36": {
"note": "For every neighbourhood, mode and kernel."
},
"C37": {
"note": "False for constant and num_points on every input: wrong number of arguments (C37_density_estimation_false); proved for no_pdf. C37_gathers states what the rest of the second function does with a density per point."
},
"C72": {
"note": "For the TensorFlow implementation, from the range structure proved in C19."
},
"C38": {
"note": "Proved on the neighbour list and, for the neighbourhoods the layers build, over exactly the points within the radius."
},
"C40": {
"note": "Weights: proved in full. The documented default influence distance conv_radius/2.5 is false (C40_default_false): the code uses conv_radius."
},
"C41": {
"note": "Closed formulas for all three layers on both devices, from which translation invariance and linearity follow; GPU calls are shown to return."
},
"C74": {
"note": "Proved for MCConv and KPConv; false for PointConv (C74_pointconv_scale_false): differences are not divided by the radius."
},
"C75": {
"note": "False: surplus kernel points are ignored, missing ones raise or give a wrong number of rows; proved for matching counts."
},
"C76": {
"note": "Formula and non-negativity proved; unbounded as soon as one output point has no neighbour (C76_finite_false); rigid layers raise."
},
"C43": {
"note": "Global and local max pooling; commutes with monotone maps and reorderings."
},
"C44": {
"note": "Mean over exactly the batch element / ball, 0 for empty neighbourhoods; GPU calls return."
},
"C45": {
"note": "False for every float radius: IndexError (C45_float_radius_raises); proved for vectors."
},
"C46": {
"note": "Independence of other points, affinity, reordering, and determination of the weights."
},
"C47": {
"note": "All angles, real arithmetic."
},
"C48": {
"note": "Proved for 5, 7, 18; 15 (the layers' default) always contains duplicates, 13 always raises."
},
"C52": {
"note": "False: without a given neighbourhood the convolution rows follow the grid's sorted order (C52_default_rows, C52_aligned_false). Proved for sorted clouds and for neighbourhoods built with an explicit sample cloud, any number of blocks, with order equivariance."
},
"C77": {
"note": "False for clouds without batch shape (always ValueError); proved otherwise."
},
"C79": {
"note": "False: KPConv blocks always raise TypeError, the bottleneck network can not be constructed with a positive number of blocks; proved for MCConv and PointConv."
},
"C49": {
"note": "False without final newline (last character lost) and for files with at most three columns or without features (raises); proved for newline-terminated tables with more than three columns and at least one feature, any delimiter string."
},
"C50": {
"note": "False without a limit: nothing is read (proved for every file); with a limit m the first m lines are read."
},
"C51": {
"note": "Proved for point_dimension=3; every other point_dimension raises (proved), so the claim for all dimensions is false. Includes the composition with PointCloud: element b has the points of file b."
},
"C53": {
"note": "Integer overflow is not modelled (unbounded integers with C division)."
},
"C54": {
"note": "Every interleaving of the grid-stride threads, any thread count; sequentially consistent memory."
},
"C55": {
"note": "Stated for any descending key array and any table as in C54; the iteration bound is the logarithm of the number of points."
},
"C56": {
"note": "Soundness and completeness hold for all dimensions >= 2, all radii up to the cell sizes, and any box margin. The duplicate-free part is false for D >= 4 when the grid has one or two cells along the last dimension (negation with witness); proved otherwise."
},
"C81": {
"note": "Proved for a positive box margin; when the margin is absorbed by float32 rounding (margin 0) the statement is false (negation with witness), because TensorFlow clamps to num_cells and CUDA to num_cells-1."
},
"C57": {
"note": "The total is right for every length, launch geometry and schedule; the prefix sums are proved when no block of the propagation kernel loops twice (N <= 512 + 64 W for W blocks). Beyond that the propagation kernel races with itself (C57_scan_false). Integer overflow not modelled; exited threads take no part in barriers."
},
"C58": {
"note": "Counting is exact for every schedule and launch size. Storing (and the whole op composed with the range search of C56) is proved for every schedule when the scan is exact (S <= 512 + 64 W, see C57); beyond that the race of the scan gives wrong slot ranges (C58_store_false), also for the whole op on a cloud that can be built (C58_find_neighbors_false)."
},
"C59": {
"note": "The claim is false in three ways, each with a machine-checked witness: a race between the limit counter and the slot counter (C59_race_false), several passes from four dimensions on (C59_passes_false), and rare seeds (C59_seed_false). Proved: the counters for every schedule, the full claim in two and three dimensions when no counter is read before b slots are given out and 1 <= offset <= b (also composed with the range search), and equality with the unlimited search when no centre exceeds the limit."
},
"C82": {
"note": "False: seed_to_float returns an unsigned int, so the draw is 0 for all but 128 seeds; the new neighbour is then always accepted and always replaces the last slot (C82_always_last), all other slots keep the first arrivals (C82_first_arrivals)."
},
"C60": {
"note": "Proved for all dimensions, clouds, launch sizes and schedules, for exact neighbour lists over the sorted points and radii up to the cell sizes; sequentially consistent memory. The three output arrays of store_sampled_pts are modelled by the index array."
},
"C61": {
"note": "Proved for all clouds, launch sizes and schedules in exact arithmetic; C61_equals_tf compares with the tensorflow implementation up to the order of the samples. Empty clouds are excluded."
},
"C83": {
"note": "Proved for clouds of at most 512 + 64*Ws points (Ws the number of resident blocks of the scan kernel); beyond that the scan kernel has a race (C57) and the neighbourhoods the sampling starts from can be wrong (C58_find_neighbors_false)."
},
"C63": {
"note": "Proved over the reals (Frechet derivative of the weighted sum of densities as a function of all points), for all launch sizes and schedules of the forward and the gradient kernel and both modes; neighbour indices must be valid."
},
"C64": {
"note": "Exact arithmetic: equals the plain sum in every ring, in every order. With rounding of every operation (relative error u): C64_rounding bounds the error by (7u + 14 n u^2) times the sum of absolute values; C64_underflow: also with gradual underflow."
},
"C84": {
"note": "Constant mode: proved up to a relative error of 2e-8 caused by the literal 0.39894228. Mode num_points: false, the TensorFlow implementation ignores the mode and the kernel ignores the bandwidth (it uses 1/sqrt(number of points), C84_num_points_bandwidth)."
},
"C85": {
"note": "Constant mode: proved. Mode num_points on the GPU: false, the bandwidth is computed from the number of all points of the batch, not of the receptive field as the comment in compute_pdf_ops.cpp says."
},
"C62": {
"note": "Both kernels are modelled thread by thread with shared memory, barriers and atomics (CudaProj.lean); exact arithmetic. C62_forward_equals_tf: every schedule of the forward kernel returns the tensor of the TensorFlow function. C62_adjoint: the two gradients are the adjoint of the (bilinear) projection, over every field. C62_gradient: they are its Frechet derivative over the reals. At least one sample is assumed for the gradient (with none the kernel is launched with zero blocks)."
},
"C86": {
"note": "Proved for the block size 64, the four accepted numbers of basis functions and every accepted number of features."
},
"C87": {
"note": "False without given neighbourhoods: the inner convolution uses the sorted cloud's neighbourhood (C87_aligned_false). C87_default_rows says exactly what is computed; C87_sorted_partial and C87_explicit_partial give alignment for sorted clouds or given neighbourhoods; C87_transposed_reuse is proved for all clouds; C87_returns: no exception on the GPU."
},
"C88": {
"note": "Text level model: lines, suffix of five characters, labels by list.index."
},
"C89": {
"note": "False: the file is reused without checking the settings (C89_cache_false); a quick test leaves uninitialised rows for every later run (C89_quick_spoils); a kill during the write makes every later run raise (C89_killed_while_writing). Partial: equal settings and no kill during the write (C89_history_partial), fewer points with the cut of modelnet40_small.py (C89_cut_partial). Every row loaded from its file has the requested number of points (C89_rows)."
},
"C90": {
"note": "The permutation and the uniform numbers are universally quantified."
},
"C91": {
"note": "False: iterating a keras Sequence does not call on_epoch_end, so every epoch uses the same batches (C91_same_batches, C91_labels_repeat) and N mod B models are never used (C91_unused, C91_all_models_false). Partial: every model is used in every epoch when B divides N (C91_divisible_partial)."
},
"C92": {
"note": "All histories; the permutation of the last on_epoch_end must be a permutation."
},
"C93": {
"note": "The staircase formula of ExponentialDecay is modelled in exact arithmetic."
},
"C94": {
"note": "Poisson disk sampling is random: C94_poisson and C94_poisson_hierarchy show that what can be kept for an element in one batch can be kept for it in any other, together with whatever can be kept there for the other elements (one radius for all dimensions; the hierarchy on the GPU). Real arithmetic, so the order of summation does not matter. Cloud.element shows that an element alone is such a pair."
},
"C95": {
"note": "Proved for Poisson disk hierarchies in every dimension and for cell average hierarchies of dimension 2 to 4 (isotropic sizes). False for cell averages from dimension 5 on: C95_never_empty_false gives a cloud of corner points of one cell whose average is farther than the cell size from each of them."
},
"C96": {
"note": "Proved for Poisson disk sampling with any radius at least the sampling radius. For cell averages the statement is false at radius = cell size (C96_cell_average_false); it holds once the radius is at least sqrt(D) times the cell size (C96_cell_average_partial), which covers the convolution radii (twice the cell size) of modelnet40.py in dimension 3."
},
"C97": {
"note": "Real arithmetic; inference (dropout and batch statistics inactive); cell average sampling, deterministic as in the default of the script; constant input features (what the script feeds). C97_from_levels gives the same conclusion for every sampling and every features that agree on the first level. C97_conv_formula and C97_head_formula give the values of a block and of the classification head."
},
"C98": {
"note": "Proved when the shapes are small against the last sampling radius (distances below it for Poisson disk sampling, extents below it minus the border for cell averages). False in general: C98_one_row_per_shape_false gives a shape with two points at distance three and radius one that gets more than one row. Logits of a shape proved for cell averages at inference; C98_from_levels for any sampling. C98_head_formula gives the values of the head."
},
"C99": {
"note": "False: the call cuts the batch axis of the padded features instead of selecting the sampled points and flattens with the sizes of the sampled level, so a sample gets the feature of an unrelated input point. Formal counterexample with coordinates as features."
},
"C100": {
"note": "CUDA: exact below 2^63 cells, and below 2^31 entries of the table. TensorFlow: exact up to 2^31 cells over all batch elements; false beyond (C100_tf_false: two batch elements of 65536 x 65536 cells share a key); the 32 bit key is always the exact key modulo 2^32."
},
"C101": {
"note": "For every format with p digits, keys below 2^p. C101_table_index combines it with the 32 bit keys. C101_needs_float64 shows that float32 would not do."
},
"C102": {
"note": "CUDA: proved for arbitrary quotients, since the kernel clamps to the last cell. TensorFlow: false (C102_tf_false, C102_tf_batches_false): it clamps to the number of cells, and with float32 the border of 1e-9 is lost beside coordinates such as 1.0, so the corner of a unit square with cell size 0.5 falls out of the grid and shares its key with a point of the next batch element. C102_tf_partial: the cell exceeds the grid by at most one, and only when the rounded quotient is an integer."
},
"C103": {
"note": "Reads are stated as non-interference: memories that agree inside the arrays give the same result. The projection kernels are covered by C86, writes of the access structure by C54_in_bounds. False with a limit on the number of neighbours: C103_limit_false gives a schedule in which a thread writes before the begin of the output. Storing without limit under the bound of the scan kernel (see C57)."
},
"C104": {
"note": "C104_grid, C104_search, C104_pdf, C104_sampling give the exact conditions (2 to 6 dimensions, at least one point and centre, non-empty batch, equal dimensions); C104_cell_sizes: other numbers of cell sizes are rejected. Violations: C104_dims_false (one dimension is rejected), C104_empty_false (an empty cloud ends the process), C104_batches_false (centres of more batch elements than the grid are accepted), C104_rank_false (a table of cell sizes is accepted). Sizes are assumed to fit into unsigned int."
},
"C105": {
"note": "C105_projection, C105_mcconv, C105_kpconv give the exact conditions, C105_network covers all feature lists of positive multiples of 32. Violations: C105_features_false (12 input features), C105_basis_false (3 MLPs of size 8)."
},
"C106": {
"note": "Up to 29826161 centres the machine has exactly the runs of the unbounded model (C106_exact, C106_find_neighbors_partial, which also needs the size bound of C57). From 29826162 centres on the last centre never gets a neighbour (C106_last_sample_lost, C106_counts_false); multiples of 2^28 centres end the process (C106_abort). The table is initialised below 2^31 cells (C106_table_zero), not for 2^31 (C106_table_false). The limited storing kernel has the same loop bound and is not repeated."
},
"C107": {
"note": "Agreement for one radius equal to the cell size (C107_agree_partial); one inclusion when the first radius is the smallest (C107_tf_in_cuda). False for radii that differ between the dimensions (C107_radii_false), for radii below the cell size (C107_small_radius_false), and with a limit (C107_limit_false), which the TensorFlow search ignores (C107_tf_limit_unused)."
},
"C108": {
"note": "Maximum pooling in every dimension (C108_max_pool); average pooling, MCConv, PointConv and KPConv in two and three dimensions, or with at least three cells in the last dimension (C108_mean_pool_partial, C108_mcconv_partial, C108_pointconv_partial, C108_kpconv_partial), all for clouds the scan handles in one pass (C57) and without rounding. Average pooling in four dimensions is refuted by a run that counts neighbours several times (C108_mean_pool_false). Every call has a run (C108_*_runs)."
},
"C109": {
"note": "C109_mcconv_partial (points, features, final weights, kernel MLP outputs), C109_pointconv_partial and C109_kpconv_partial (features, weights, basis values; rigid kernel points): two and three dimensions, no pair exactly at the radius (unless its points do not move relative to each other), clouds the scan handles in one pass, no rounding; the derivatives of the parts TensorFlow differentiates itself (kernel MLP, kernel point weights) are hypotheses. Without the condition on the radius the claim fails: the output jumps when a point crosses it (C109_kpconv_false). Every backward pass has a run (C109_runs)."
},
"C110": {
"note": "C110_poisson_results: the samples of the TensorFlow version are exactly the separated covering lists, in any order. C110_poisson_refines_partial / C110_poisson_hierarchy_partial: a GPU sample is one of them, equal cell sides, clouds the scan handles in one pass; with different sides this fails (C110_poisson_refines_false: the TensorFlow version compares with the first side only). C110_average_same (any sides) and C110_average_hierarchy_partial (equal sides) for cell averages. C110_sample_runs, C110_runs: runs exist."
},
"C111": {
"note": "Points in two or three dimensions, clouds the scan handles in one pass, no rounding, Monte Carlo convolutions with the rounded constant of the CUDA density kernel. C111_logits_partial / C111_small_logits_partial: given levels, training and inference. C111_poisson_partial / C111_small_poisson_partial: whole call. C111_average_partial: inference, constant features (C99 shows why other features are not determined); C111_small_average_partial: any features, shapes small against the last cell size. C111_logits_of_a_shape_partial: batch independence on the GPU. C111_runs, C111_small_runs: runs exist."
},
"C112": {
"note": "C112_points_stay; C112_sizes_partial and C112_points_partial for levels without empty batch elements and histories in which no level itself was asked for a number of rows (C06, C07 say what happens then); C112_constructor: the constructor builds such hierarchies. max_num_points is not honoured (C112_limit_false; C112_points_partial holds for every value of it)."
},
"C113": {
"note": "One theorem per operation. The projection gradients: C113_proj_grads_partial for shapes of rank at most two; C113_proj_grads_false: the shape function of that operation is wrong for a tensor of rank three its checks accept. C113_pdf_backward, C113_proj_backward: shapes of the gradients."
},
"C114": {
"note": "MCConv proved for positive bandwidth and radius (C114_mcconv). PointConv divides by the output of a trained network: proved if the network has no zero on (0, 1] (C114_pointconv_partial), for fresh layers iff their weights do not cancel (C114_fresh_network, C114_pointconv_fresh_partial); false in general (C114_pointconv_false: a freshly initialised layer with negative first weights divides by zero on every input). No rounding: densities that underflow are not covered."
},
"C115": {
"note": "C115_layouts_partial: any sequence, any layouts, clouds without empty batch elements, nobody asked the clouds for a number of rows; sorted rows only at the end or for clouds whose batch ids are sorted. Sorted rows of an unsorted cloud are taken for unsorted ones by the next layer (C115_layouts_false)."
},
"C116": {
"note": "MCConv and PointConv with explicit matrices; KPConv with rigid kernel points (C116_kpconv_partial); with deformable kernel points the map is not linear (C116_kpconv_false) but still acts on every point alone (C116_kpconv_local)."
},
"C117": {
"note": "C117_reuse_partial: neighbourhoods built with the output cloud, one bandwidth. Different bandwidths: false, the densities of the first call are used (C117_bandwidth_false). Neighborhood(grid, radius) without sample cloud: correct for the cloud of the sorted points (C117_no_sample_sorted) and for clouds that are in grid order (C117_no_sample_partial), false otherwise (C117_no_sample_false): the rows come in grid order; the notebook uses it that way."
},
"C118": {
"note": "Poisson disk sampling with the first cell size the smallest (the radius of the sampling), cell averages with any cell sizes, every device; C118_gpu for all schedules of the CUDA kernels with one radius per level."
},
"C119": {
"note": "Gaussian densities with one bandwidth, as in the layers; KPConv rigid and deformable. C119_filters_must_turn: the filters have to be turned along."
},
"C120": {
"note": "Proved if the batch size divides the number of models (C120_validation_partial). Otherwise the last models of the random order are left out (C120_used gives the exact value) and the result depends on the order (C120_all_models_false): 4 of the 2468 test models of ModelNet40 with batches of 16. C120_returns: no exception on the GPU. C120_no_batch: with fewer models than one batch loss and accuracy are reported as zero. The loss of a row is a parameter (library code)."
},
"C121": {
"note": "One theorem per kernel (C121_own_entry for find_ranges_grid_ds and elem_wise_min, whose threads write only the entries of their own index; C121_atomic for the gradients of the densities). Two kernels have races: the propagation of the scan (C121_propagate: race-free exactly if no thread runs its loop twice, that is for at most 512 + 64 W elements) and the neighbour limit (C121_store_limited_false: the counter is read without an atomic instruction; C121_store_limited_partial: none if no centre has more neighbours than the limit). The accesses of an action are what it can change and what influences it."
},
"C122": {
"note": "Proved for sampling (C122_sampling, C122_average), for operations that only launch kernels (C122_launches) and for the neighbour search in two and three dimensions (C122_find_partial, C122_find_kernels_partial, C122_find_limit_partial). From four dimensions on the storing passes read the offsets from a page-locked buffer which the operation gives back without waiting: C122_find_false shows a schedule in which a neighbour is missing. The partial theorems hold for any dimension if nobody uses the buffer before the stream has read it. Device memory is handed on in stream order."
},
"C123": {
"note": "Proved for the first kernel of the scan, the counting of keys, the projection and its gradient. The counting of neighbours has three barriers inside a loop over samples x ranges x threads, which is uniform exactly if the number of centres is a multiple of four (C123_count_partial, C123_count_false); the second kernel of the scan is uniform exactly if the number of elements is a multiple of 64 (C123_propagate_partial, C123_propagate_false). The other claims about these two kernels take a barrier as satisfied by the threads that are still in the loop."
},
"C124": {
"note": "False: every neighbour search and every cell average leaves one event behind, every Poisson sampling two (C124_events_partial counts them for every history, C124_events_false shows there is no bound). Operations that only launch kernels leave nothing behind (C124_launches). Buffers allocated by TensorFlow are freed by TensorFlow and are not counted."
},
"C125": {
"note": "Partial: with u the relative error of one operation and all points at most M cells away from the corner of their box, all pairs with scaled distance below 1-(k+11+12M)u are found and no pair above 1+(k+11)u, in k+2 dimensions (C125_find_neighbors_partial), and such runs exist for rounding to nearest (C125_exists). Restricted to the sizes for which the scan is right (C57) and to calls without a neighbour limit (C59). Overflow and underflow of float32 are not modelled; the two kernels that evaluate the test are assumed to agree. C125_find_neighbors_false: without a limit on the number of centres the scan kernel breaks the result even without rounding errors (C57). What happens if the two kernels disagree is C145."
},
"C126": {
"note": "Partial: proved for all coordinates, all boxes and all results of undefined conversions (C126_find_neighbors_partial) with exact arithmetic for finite values; restricted to the sizes for which the scan is right (C57) and to calls without a neighbour limit (C59). Infinite coordinates may give so many cells that the table of the grid does not fit into memory; this is not modelled. C126_finite: for finite values cells and tests are those of C58. C126_find_neighbors_false: without a limit on the number of centres (C57)."
},
"C127": {
"note": "Partial: holds for the projection (C127_projection) and the density estimation (C127_density) in any arithmetic. It is false for the gradients, whose atomic additions happen in the order of the schedule (C127_gradient_false: two runs with 24-bit numbers give 2^25 and 2^25+4), and for the search followed by the projection, because the neighbours of a sample are stored in the order of the schedule (C127_layer_false). Additions and multiplications are separate operations; contraction to fused operations by the compiler is not modelled."
},
"C128": {
"note": "Proved for every rounding with relative error u (no overflow or underflow): projection (C128_projection), search and projection (C128_layer, C128_runs_agree; for sizes for which the scan is right, C57, and without a neighbour limit), gradients of features and basis values relative to the operation in exact arithmetic (C128_gradient, what that computes is C62)."
},
"C129": {
"note": "Proved: C129_one_row_per_shape, C129_logits_of_a_shape (cell averages, inference), C129_returns, C129_head_formula (the head of the network written out). Real arithmetic; the moving averages of the normalisation are parameters."
},
"C130": {
"note": "Partial: pairing (C130_pairing), batches of all epochs (C130_training) and successive calls (C130_calls) are proved. The points of a row are not always a subset: indices are drawn with repetition (C130_subset_false); they are if no index is drawn twice (C130_subset_partial)."
},
"C131": {
"note": "Partial: refuted by C131_same_rates_false, because the optimiser and its step counter are shared: the next model is trained with rate^epochs times the rates of the one before (C131_next_model, C131_rates). The first model has the intended schedule (C131_first_model_partial)."
},
"C132": {
"note": "Partial: results (C132_results), checkpoints for an empty directory at the start (C132_checkpoints_partial), saved epochs before the last validated one (C132_available), final variables if the last epoch is one that is saved, as with the default interval (C132_final_partial). Refuted otherwise: checkpoints of an earlier run stay under numbers the new run has not reached (C132_stale_false); the final variables may never be written (C132_final_false). A crash inside a write is taken to leave a file that cannot be loaded."
},
"C133": {
"note": "Partial: refuted by C133_resume_false, because neither the state of the optimiser nor its step counter is saved, so the decay starts again; holds for optimisers without state (C133_resume_partial). The resumed run overwrites the checkpoints from number 0 on (C133_overwrites)."
},
"C134": {
"note": "Partial: proved at every position at which no pair of points is exactly one radius apart (C134_mcconv_partial, C134_pointconv_partial, C134_kpconv_partial, C134_pool_partial); PointConv also needs that its density network has no zero in (0, 1]. At the radius a neighbour enters or leaves with full weight, and the output of KPConv jumps (C134_jump_false). The bound for changed features holds without condition on distances (C134_pool_features)."
},
"C135": {
"note": "Partial: proved for MCConv, local and global pooling (maximum and mean). PointConv and KPConv with fixed kernel points multiply the output by the number of repetitions (C135_pointconv_partial, C135_kpconv_partial), so the claim fails for them (C135_kpconv_false). Samples, hierarchies and the network of the tutorial starting with MCConv: C135_poisson, C135_average, C135_hierarchy, C135_tutorial (repetitions in any order; GPU device for the last two)."
},
"C136": {
"note": "C136_mcconv, C136_pointconv, C136_pool, C136_kpconv (rigid and deformable), C136_chain (induction over the layers); C136_two_radii gives two clouds that agree within one radius and differ in the output of MCConv."
},
"C137": {
"note": "Partial: no version that meets the requirement is refused (C137_accepts) and the comparison with 10.1 is exact (C137_at_least). Accepted are also versions in which the requested one is followed by a further digit (C137_accepted_partial): version 10.1 where 1 is requested (C137_accepted_false)."
},
"C138": {
"note": "Partial: what is found is the first accepted candidate (C138_found, C138_candidates, C138_cudnn); it is found whenever there is one if no header stops the search (C138_complete_partial), as for cuBLAS, cuDNN, NCCL and TensorRT (C138_no_stop). A cuda.h without CUDA_VERSION in an earlier directory ends the search with a ValueError (C138_complete_false), and without requirement a cuDNN header without version is taken and reported with an empty version (C138_cudnn_false). C138_header, C138_zero: what is read from a header is the number of the first line that defines exactly this name; a cuda.h of version 0 is passed over. C138_tensorrt: headers of TensorRT have a version exactly if they define all three numbers."
},
"C139": {
"note": "Partial: the answer is the last part of the root, and it is the root exactly if the root has one part, as /usr (C139_root_partial); for /opt/cudnn/lib/x86_64-linux-gnu the search goes to /cudnn (C139_root_false). Other values are split at commas without loss (C139_list); there is exactly one answer (C139_total)."
},
"C140": {
"note": "Scope as for C111: points in two or three dimensions, clouds the scan handles in one pass, no rounding, the rounded constant of the CUDA density kernel. C140_logits_partial: given levels, training and inference. C140_poisson_partial: whole call. C140_average_partial: cell averages at inference. C140_runs: runs exist."
},
"C141": {
"note": "C141_values: no history makes the call fail or changes a value. C141_shape_false: the shape is the one the cloud had when its box was first used, by get_AABB, a Grid or a PointHierarchy. C141_frozen: it never changes after that. C141_shape_partial: no batch shape set after the first use. C141_hierarchy: after set_batch_shape of a hierarchy the last level has the new shape, all other levels the old one, the first level that of an earlier box."
},
"C142": {
"note": "C142_threads_differ, C142_period, C142_all_values: as stated, for every seed but one. C142_stuck, C142_moves_false: for every second there is one thread number, 61 minus the second modulo 2^32, which draws 0 for ever. C142_moves_partial: no thread of a launch has this number while the clock is above 61 and below 2^32 less the number of threads. C142_launches_false, C142_next_second: a launch one second later gives thread t the numbers of thread t + 1. C142_ones, C142_outside: every other thread draws 1.0 exactly 128 times in a period and then writes one place before the range of its sample (compare C59)."
},
"C143": {
"note": "C143_poisson, C143_poisson_tf, C143_poisson_gpu: true for Poisson sampling, on both paths. C143_average_false: false for cell averages: the averages of two cells can fall into one cell of the grid of the averages, since the grid begins at the smallest average."
},
"C144": {
"note": "Proved for every Poisson sample in the sense of C25/C60 and for the cell averages of C29; C144_pairs for the TensorFlow search."
},
"C145": {
"note": "C145_slots: what is written in terms of the two outcomes. C145_safe: no harm beyond missing pairs if the second test accepts no more for any centre. C145_equal_partial: as stated if the numbers agree for every centre, in particular for equal outcomes (C145_same: then this is C58). C145_overrun, C145_collision, C145_invented, C145_false: what happens otherwise, in every run: a write past the end, two centres writing one slot, or the pair (0, 0) returned though nobody found it. Whether the compiled kernels differ is outside of the model; the texts of both tests are the same."
},
"C146": {
"note": "C146_atomic: any combining function, all schedules. C146_terminates: at most N (T + 1) + T accesses of the word for N threads when others change it T times; C146_can_go_on, C146_run_exists: no deadlock. C146_max: the largest number, for values with several bit patterns and not-a-number too. C146_returns_false: the header says the stored value is returned, the code returns the value before."
},
"C147": {
"note": "C147_derivative (left derivative at 0 for the rectifiers, where none exists), C147_smooth, C147_rectified. C147_argument_false: for ELU the backward method must be given the output of the forward pass, not its argument; the parameter name does not say so."
},
"C148": {
"note": "C148_monotone, C148_filter, C148_compose, C148_disjoint, C148_max_pooling. C148_mean_may_fall: the mean may fall. Symmetry is C23. Exact arithmetic."
},
"C149": {
"note": "C149_zero_offsets, C149_zero_features, C149_weights_linear: as stated. C149_gaussian_differentiable: as stated for Gaussian interpolation, in weights, offset weights and features together. Linear interpolation (the default): C149_linear_differentiable_partial away from kernel points and influence distances; C149_linear_differentiable_false: not where a neighbour lies on a displaced kernel point; every point that is its own neighbour lies on the first built-in kernel point when the offsets are zero. C149_features_not_linear: unlike the rigid layer (C41). What TensorFlow's differentiation rules return: C154."
},
"C150": {
"note": "C150_tested characterises the examined points by adjacent cells, C150_box and C150_near by coordinates, C150_work bounds their number on a Poisson sample. In four dimensions a point can be examined twice (C150_four_false; the result then contains it twice, C56)."
},
"C152": {
"note": "Partial: false for KPConv with built-in kernel points (C152_kpconv_false): these are turned by random angles at construction and are not variables, so they are not stored; a restored rigid layer computes what the saved one computes on a turned cloud (C152_kpconv_turned). Proved for MCConv, PointConv and KPConv with custom kernel points. Assumes that save_weights stores all variables of the layers (trusted)."
},
"C153": {
"note": "Partial: the closed formulas are proved; the notebook prints other numbers (C153_notebook_false), and its calls with one output feature raise, because the hidden size is passed as number of kernels (C153_notebook_raises)."
},
"C151": {
"note": "Partial: with 2^31 pairs or more, pairs are written to negative positions, before the beginning of the tensor (C151_outside; C151_pairs_false: 46341 points within one radius). Below, C151_pairs_partial, which like C58 needs that the scan needs no more than one launch per level."
},
"C154": {
"note": "Partial. C154_offset_weights_partial, C154_features_partial (deformable), C154_points_partial, C154_motion_partial (rigid, with a given neighbourhood; input and output points along every motion): as stated where no neighbour is exactly on a (displaced) kernel point and, for linear interpolation, none exactly at the influence distance. Elsewhere: C154_regularization_nan (and _false): the gradient of regularization_loss is never a number, for any layer and input, because of the norms on the diagonal that is replaced by zero only afterwards, although the repulsive loss is differentiable (C154_repulsion_differentiable). C154_on_kernel_point_nan, C154_zero_features_nan (and C154_offset_weights_false): not numbers where a neighbour is on a displaced kernel point, e.g. where all features around a point are zero. C154_points_nan, C154_builtin_points_nan (and C154_points_false): with the built-in kernel points and a cloud to itself no gradient with respect to a point is a number. C154_conv_weights: with respect to the convolution weights, always. TensorFlow's gradient functions are modelled (TfGrad), with exact arithmetic on finite values. The check of this gradient in kernel_point_conv_test.py does not run when the file is executed (it compares __name__ with '__main___')."
},
"C155": {
"note": "C155_density: error in terms of the accuracy u of the arithmetic, the accuracy v of the exponential function and the bandwidth, with the literal 0.39894228 in place of 1/sqrt(2 pi) included. C155_single_precision: fl32 is rounding to nearest with 24 bits and gradual underflow (fl32_arith shows that it meets the assumptions); C155_search: for the neighbours found by the (exact) search; what rounding does to the search is C125. Overflow and the contraction of a multiplication and a subtraction into one instruction, which the compiler may do, are not modelled. C64_underflow: the bound of the compensated summation with underflow."
},
"C156": {
"note": "Partial. C156_mcconv_partial: the whole layer on the GPU, where no two points are exactly one radius apart, unless they do not move relative to each other (C109) and no activation function is evaluated at its kink; C156_mlp_partial: the kernel MLPs alone. C156_bias_kink (one hidden layer, the default): with relu and leaky_relu the gradient of a bias is always the derivative from the left, and the loss is differentiable if and only if the gradients of the outputs at the kink add up to zero. C156_initial, C156_initial_false: this concerns every layer at its initial values, since biases are initialised with zeros and the kernel input of a point that is its own neighbour is zero. TensorFlow's gradient functions are modelled (MlpGrad), with exact arithmetic."
},
"C157": {
"note": "Partial. C157_global_partial, C157_local_partial: for average pooling along every motion of the features, for maximum pooling along every motion in which the features that attain a maximum move together (in particular without ties). C157_local_subgradient, C157_global_subgradient (upstream gradients that are not negative) and C157_local_sum, C157_global_sum hold without such a condition. C157_ties_false: at a tie the maximum need not be differentiable. TensorFlow's gradient functions are modelled (PoolGrad), with exact arithmetic; gradients with respect to the points are zero, since the neighbourhoods are integers (C134 states that they jump)."
},
"C158": {
"note": "Partial. C158_pointconv_partial: the whole layer on the GPU, where no two points are exactly one radius apart, unless they do not move relative to each other (C109), no activation function is evaluated at its kink, the density network does not vanish, and points of a neighbourhood that share the largest density keep a common density; C158_basis_partial: the two networks and the normalisation alone. C158_scale holds without these conditions, for positive densities. C158_ties_false: where two densities tie and move apart, the loss need not be differentiable. C158_runs: there are runs. TensorFlow's gradient functions are modelled (PcGrad), with exact arithmetic."
},
"C159": {
"note": "Partial. C159_loss_partial, C159_linear, C159_batchNorm, C159_head_partial: where no probability is exactly at a bound of the clipping and no activation function is evaluated at its kink. C159_unclipped: without clipping the gradient is softmax minus the label. C159_flat, C159_false: a model whose correct class has a probability below 1e-7 contributes no gradient at all, although it is classified wrongly. C159_bnSum, C159_deadBias, C159_shift: the gradients behind a batch normalisation add up to zero over the batch, so that the bias before it never gets a gradient and has no effect in training. C159_single: with a batch of one model no gradient passes a batch normalisation. TensorFlow's and Keras' functions are modelled (HeadGrad), with exact arithmetic."
},
"C160": {
"note": "Partial. C160_small_partial: where no activation function is evaluated at its kink, no probability is at a bound of the clipping and no density network of PointConv vanishes; deformable KPConv layers left out; exact arithmetic; the levels of the hierarchy are given (sampling does not depend on trainable variables). C160_conv_partial, C160_levels_partial: one convolution and the loop over the levels. C160_runs: every run of the network is the forward pass of a training step."
},
"C161": {
"note": "Partial. C161_net40_partial: where no activation function is evaluated at its kink, the maximum of each pooling is attained once, no probability is at a bound of the clipping and no density network of PointConv vanishes; deformable KPConv layers left out; exact arithmetic; the levels of the hierarchy are given. C161_block_partial, C161_levels_partial: one block and the loop over the levels. C161_runs: every run of the network is the forward pass of a training step."
},
"C162": {
"note": "Partial. C162_small_partial, C162_net40_partial: where no activation function is evaluated at its kink, maxima are attained once, no probability is at a bound of the clipping and no density network of PointConv vanishes; deformable KPConv left out; same dropout factors before and after the update; exact arithmetic; what RMSprop and Adam compute (Keras) is trusted to be as written. Complete for single numbers: C162_step, C162_training, C162_scripts (bounds), C162_average (the accumulator is the weighted average of the squared gradients), C162_still, C162_deadBias, C162_adam and C162_adamConst (tutorial). Tutorial: C162_tutorial_partial (RMSprop) and C162_adamFirst_partial, with C162_adam_first (the first update of Adam is one of RMSprop with rho = 0): the first update of the notebook lowers the loss of its batch; C162_adam_network: that update makes the first step of Adam with every number of every variable and changes nothing else; later updates of Adam use momentum and are not covered."
},
"C163": {
"note": "Partial. C163_restore_partial: both directions (no result is lost, no new one appears); for KPConv only if the new network has drawn the same random angles, since the turned kernel points are not variables (C152_kpconv_false). C163_layers: as stated. Exact arithmetic; what Keras stores is trusted to be the variables listed."
},
"C164": {
"note": "C164_mcconv, C164_pointconv, C164_kpconv, C164_local_pooling, C164_cell_average, C164_poisson, C164_hierarchy, C164_net40, C164_small, C164_tutorial, C164_shape. Positive cell sizes and a positive epsilon of the grid are assumed for cell averages, hierarchies and networks. Exact arithmetic: with rounding, moving changes the differences of coordinates."
},
"C165": {
"note": "C165_from_levels (any sampling, given levels with the same points), C165_net40 (cell averages, constant input features), C165_small_from_levels, C165_small_partial, C165_tutorial_from_levels and C165_tutorial (network of the notebook, any features), C165_loss. Partial: the small network is restricted to non-empty shapes that are small against the last cell size, without which it does not return a row per shape (C98); Poisson samples depend on the order of the points, for them only the theorems from the levels apply. Exact arithmetic: sums in another order round differently."
},
"C166": {
"note": "C166_net40_partial (constant input features), C166_small_partial and C166_tutorial_partial (all input features). Partial: the steps are taken where no activation, clipping bound or maximum has a kink (as in C160, C161 and C168); the small network needs one point per shape on the last level (C98); dimensions 2 and 3; the levels of the two hierarchies hold the same points, as C164 and C165 show for cell averages. Exact arithmetic: sums in another order round differently."
},
"C167": {
"note": "Partial. C167_default_false (PointResNet), C167_spatial_default_false (spatial bottleneck): without a neighbourhood argument the network builds one without sample cloud, whose centres are in the order of the grid, that is with descending batch ids; the rows of the first shape are computed with the neighbours of points of the last one and their own coordinates, so moving one shape changes the rows of another, for batches with sorted batch ids. C167_resnet_partial, C167_spatial_partial, C167_shape_partial, C167_spatial_shape_partial: as stated with neighbourhoods that are built with the points as explicit sample cloud and passed to the call. C167_whole, C167_whole_spatial: moving the whole batch by one vector changes nothing in either case."
},
"C168": {
"note": "Partial: C168_tutorial_partial (with C168_levels_partial for the convolutions) for exact arithmetic, at values where no activation function is at its kink and no probability at a bound of the clipping of the loss. C168_runs: training steps exist for every run. Two or three dimensions."
},
"C169": {
"note": "C169_radii and C169_runs for every set of points that is a Poisson sample; C169_tf_and_gpu_partial for the runs of the two implementations (the GPU for clouds that one pass of the kernel covers, as in C110), C169_exist: such runs exist; C169_hierarchy, C169_levels, C169_gpu for hierarchies. C169_row: exact bounds for a row of equally spaced points. C169_equal_false: in the setting of test_sampling_poisson_disk_on_uniform both three samples, as the test expects, and two are possible. Exact arithmetic."
},
"C170": {
"note": "Poisson sampling: C170_poisson, C170_hierarchy, C170_tutorial, for every border of the bounding boxes in either unit; C170_residual and C170_small for the networks of the scripts (Poisson sampling, or cell averages with the border in the new unit). C170_average_partial, C170_tutorial_average_partial: cell averages only if the border is given in the new unit; C170_average_false: with the constant border 1e-9 of the code two samples become one. PointConv with its first kernel layer divided by the factor (without that C74_pointconv_scale_false). GPU device, exact arithmetic."
},
"C171": {
"note": "C171_poisson, C171_hierarchy, C171_tutorial, C171_residual, C171_small. Layers by C119; Gaussian kernel for the densities, GPU device, exact arithmetic. C171_average_false: a reflection turns a cloud with three cell averages into one with four."
},
"C172": {
"note": "C172_residual: for batches in which every shape occupies the same places (SameShapes), every logit array possible for one is possible for the other, and conversely. GPU device, exact arithmetic; sampled levels by C135_hierarchy. Partial: C172_average_false shows that the cell averages of two recordings of the same places differ."
},
"C173": {
"note": "C173_copies, C173_meanwhile, C173_once, C173_ends, C173_finite. The three writes are single steps here, which justifies the model of store_sampled_pts in Verif/CudaSampling.lean, where they are one. Sequentially consistent memory; the test of pSelected (read-only memory) and the atomic addition are one step."
},
"C174": {
"note": "C174_residual, C174_tutorial: two batches sharing a shape; C174_residual_product, C174_tutorial_product: the possible logits of a batch are the combinations of those of its shapes. GPU device, inference (in training the batch normalisation joins the shapes), exact arithmetic. modelnet40_small.py is left out, as it does not return one row per shape in general (C98_one_row_per_shape_false)."
},
"C175": {
"note": "C175_tutorial, C175_residual, C175_small: the logits. C175_head_tutorial, C175_head_residual, C175_head_small: gradients of the head and of the features handed to it. C175_convolutions_tutorial, C175_convolutions_residual, C175_convolutions_small: gradients of all variables before the head. GPU device, exact arithmetic. For modelnet40_small.py one row of logits is assumed, as rows and shapes differ there (C98)."
}
}