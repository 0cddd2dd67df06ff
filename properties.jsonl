{"id": "C01", "title": "Padded constructor round trip", "statement": "Building a PointCloud from a padded tensor [A1..An,V,D] with sizes and calling get_points() returns a tensor of the same shape whose first sizes[b] rows of every batch element are the given rows, in order, and whose remaining rows are zero, whatever garbage the padding held.", "quantifier": "every batch shape, every V, every sizes tensor with entries <= V, every tensor content", "why_tests_cant": "Ranges over all shapes, all size vectors (including zeros) and all padding contents.", "anchors": ["pylib/pc/PointCloud.py:PointCloud.__init__", "pylib/pc/PointCloud.py:_init_from_padded", "pylib/pc/PointCloud.py:get_points", "pylib/pc/PointCloud.py:get_unflatten"]}
{"id": "C02", "title": "get_points(id) returns exactly one batch element", "statement": "get_points(id) returns precisely the input points whose batch id is id, each exactly once and in input order; over all ids below the batch size the results partition the input points.", "quantifier": "every segmented point cloud (any order of batch ids) and every id", "why_tests_cant": "Unordered, interleaved and missing batch ids are unboundedly many; a test fixes one interleaving.", "anchors": ["pylib/pc/PointCloud.py:get_points"]}
{"id": "C03", "title": "Batch index errors", "statement": "get_points(id) raises IndexError exactly when id is not a valid batch index, i.e. outside [0, batch_size).", "quantifier": "every point cloud and every integer id", "why_tests_cant": "A test only samples ids; the boundary id = batch_size and negative ids must be covered for every batch size.", "anchors": ["pylib/pc/PointCloud.py:get_points"]}
{"id": "C04", "title": "get_sizes reports the number of points per batch element", "statement": "get_sizes() has one entry per batch element and entry b is the number of points with batch id b.", "quantifier": "every point cloud, any order of ids, any batch size, including batch elements without points", "why_tests_cant": "Depends on every possible multiset and order of batch ids and on empty elements.", "anchors": ["pylib/pc/PointCloud.py:get_sizes"]}
{"id": "C05", "title": "Sizes add up to the number of points", "statement": "The entries of get_sizes() are positive for clouds given by batch ids and always add up to the total number of points N.", "quantifier": "every point cloud given by batch ids", "why_tests_cant": "Sum law over arbitrarily many batch elements and points.", "anchors": ["pylib/pc/PointCloud.py:get_sizes"]}
{"id": "C06", "title": "Padded view agrees with the per-element view", "statement": "get_points() without id on a cloud given by batch ids returns in row b the points get_points(b), in the same order, followed by zeros up to max(sizes) rows.", "quantifier": "every point cloud given by (unsorted) batch ids", "why_tests_cant": "Involves stable sorting of arbitrary interleavings; any finite test fixes few interleavings.", "anchors": ["pylib/pc/PointCloud.py:get_points", "pylib/pc/PointCloud.py:get_unflatten", "pylib/pc/PointCloud.py:_sorted_indices_batch"]}
{"id": "C07", "title": "max_num_points is honoured regardless of earlier calls", "statement": "get_points(max_num_points=m) with m >= max(sizes) returns V = m rows per batch element, whatever methods have been called on the cloud before.", "quantifier": "every history of earlier get_points/get_unflatten/get_sizes calls and every m", "why_tests_cant": "Quantifies over call histories; memoisation bugs only show after particular earlier calls.", "anchors": ["pylib/pc/PointCloud.py:get_unflatten", "pylib/pc/PointCloud.py:get_points"]}
{"id": "C08", "title": "set_batch_shape changes only the arrangement", "statement": "set_batch_shape(s) succeeds exactly when prod(s) equals the batch size; it never changes the points, ids or their per-element grouping; a rejected shape leaves the cloud unchanged; afterwards get_points((i1..in)) returns the element with row-major index of (i1..in).", "quantifier": "every point cloud, every shape, every multi index, every sequence of set_batch_shape calls", "why_tests_cant": "Quantifies over all shapes of any rank and call sequences.", "anchors": ["pylib/pc/PointCloud.py:set_batch_shape", "pylib/pc/PointCloud.py:get_points"]}
{"id": "C09", "title": "Constructor input validation", "statement": "The constructor rejects 1-D input, 2-D input without sizes and batch_ids, and 2-D input whose number of batch ids differs from the number of points, and accepts every other combination of ranks; for accepted 2-D input with batch ids and no batch size, every id is below the resulting batch size.", "quantifier": "every combination of rank, presence of sizes/batch_ids and lengths", "why_tests_cant": "Decision logic over all ranks and lengths.", "anchors": ["pylib/pc/utils.py:check_valid_point_cloud_input", "pylib/pc/PointCloud.py:_init_from_segmented"]}
{"id": "C10", "title": "Feature flatten / padded output round trip", "statement": "Layer features handed over padded and layer outputs returned padded use the same correspondence: flattening the padded output of a layer gives back the per-point features in the order of the cloud's points, for any order of batch ids; return_sorted lists them stably sorted by batch id.", "quantifier": "every point cloud with no empty batch element, every feature tensor", "why_tests_cant": "Permutation correctness for all interleavings of batch ids.", "anchors": ["pylib/pc/utils.py:_flatten_features", "pylib/pc/layers/utils.py:_format_output"]}
{"id": "C11", "title": "Bounding boxes contain their points and are tight", "statement": "For every batch element with at least one point, every point lies strictly inside its bounding box, and every face of the box is within 1e-9 of some point of that element.", "quantifier": "every point cloud and batch element", "why_tests_cant": "All coordinates and all batch assignments.", "anchors": ["pylib/pc/PointCloud.py:_AABB.__init__"]}
{"id": "C12", "title": "Diameter dominates all distances", "statement": "AABB.get_diameter() (euclidean, 1-norm, infinity norm) of a batch element is at least the corresponding distance between any two of its points.", "quantifier": "every point cloud, every pair of points of one batch element, each supported norm", "why_tests_cant": "Universal inequality over real coordinates.", "anchors": ["pylib/pc/PointCloud.py:_AABB.get_diameter"]}
{"id": "C13", "title": "Grid cells identify batch element and cell", "statement": "Two points get the same grid key exactly when they belong to the same batch element and fall into the same cell of the regular grid; all keys lie in [0, batch_size * number of cells).", "quantifier": "every point cloud, every dimension, all positive cell sizes", "why_tests_cant": "Mixed radix injectivity and boundary handling over all coordinates and dimensions.", "anchors": ["pylib/pc/custom_ops/custom_ops_tf.py:compute_keys_tf", "pylib/pc/Grid.py:Grid.__init__"]}
{"id": "C14", "title": "Grid order is a sorted permutation", "statement": "The sorted points of a grid are a permutation of the cloud's points that carries along batch ids and keys; keys are non-increasing, so points of one cell, of one 2D cell and of one batch element are contiguous.", "quantifier": "every point cloud and cell sizes", "why_tests_cant": "Sorting correctness for arbitrary inputs, including ties.", "anchors": ["pylib/pc/Grid.py:Grid.__init__"]}
{"id": "C15", "title": "The 2D access structure is exact", "statement": "Entry [b,i,j] of Grid.get_DS() is a half-open range that contains sorted index k if and only if the k-th sorted point belongs to batch element b and its cell has first coordinates (i,j); empty cells give empty ranges.", "quantifier": "every point cloud, dimension > 1, cell sizes, every (b,i,j) and k", "why_tests_cant": "Exactness for all cells including empty and boundary ones.", "anchors": ["pylib/pc/custom_ops/custom_ops_tf.py:build_grid_ds_tf", "pylib/pc/Grid.py:get_DS"]}
{"id": "C16", "title": "Neighbour search is sound", "statement": "Every reported neighbour pair (p,c) satisfies: p and c belong to the same batch element and their distance is below the radius; no pair is reported twice.", "quantifier": "every grid, every centre cloud, every radius (also different from the cell size), any dimension > 1", "why_tests_cant": "All geometric configurations and grids.", "anchors": ["pylib/pc/custom_ops/custom_ops_tf.py:find_neighbors_tf"]}
{"id": "C17", "title": "Neighbour search is complete", "statement": "If the grid was built with cell size equal to the search radius, every point of the same batch element at distance below the radius of a centre is reported for that centre, also for centres outside the bounding box.", "quantifier": "every point cloud, every centre cloud, every positive radius, dimension > 1", "why_tests_cant": "A missing neighbour depends on delicate cell boundary positions; only a proof covers all of them.", "anchors": ["pylib/pc/custom_ops/custom_ops_tf.py:find_neighbors_tf", "pylib/pc/custom_ops/custom_ops_tf.py:compute_keys_tf", "pylib/pc/custom_ops/custom_ops_tf.py:build_grid_ds_tf"]}
{"id": "C18", "title": "Completeness for radius smaller than the cell size", "statement": "The documentation of compute_neighborhoods asks for a radius smaller than the grid's cell size; for every such radius the search reports all points closer than the radius.", "quantifier": "every point cloud and every radius below the cell size", "why_tests_cant": "Boundary cells of all grids.", "anchors": ["pylib/pc/Neighborhood.py:compute_neighborhoods", "pylib/pc/custom_ops/custom_ops_tf.py:find_neighbors_tf"]}
{"id": "C19", "title": "Neighbour ranges partition the pair list", "statement": "The returned ranges are non-decreasing, end with the number of pairs, and for each centre i the pairs between range i-1 (0 for i=0) and range i are exactly the pairs whose centre is i.", "quantifier": "every neighbour search result", "why_tests_cant": "Prefix-sum law for any number of centres, including centres without neighbours.", "anchors": ["pylib/pc/custom_ops/custom_ops_tf.py:find_neighbors_tf"]}
{"id": "C20", "title": "Reported neighbour indices refer to the input cloud", "statement": "The original neighbour ids of a Neighborhood index the input cloud: the point with that id in the input cloud is the point the search found in grid order, so the distance and batch conditions hold for the input cloud's points.", "quantifier": "every grid and centre cloud", "why_tests_cant": "Permutation composition for every sort order.", "anchors": ["pylib/pc/Neighborhood.py:Neighborhood.__init__", "pylib/pc/Neighborhood.py:compute_neighborhoods"]}
{"id": "C21", "title": "Brute-force search agrees with the definition", "statement": "find_neighbors_no_grid returns exactly the pairs (p,c) of the same batch element with distance <= radius, ordered by centre, then by point, with no duplicates.", "quantifier": "every pair of clouds and every radius", "why_tests_cant": "All configurations.", "anchors": ["pylib/pc/custom_ops/custom_ops_tf.py:find_neighbors_no_grid"]}
{"id": "C22", "title": "Brute-force ranges delimit each centre's neighbours", "statement": "The ranges returned by find_neighbors_no_grid delimit, for every centre, exactly its neighbours, as documented.", "quantifier": "every pair of clouds, including centres without neighbours", "why_tests_cant": "Centres without neighbours at arbitrary positions.", "anchors": ["pylib/pc/custom_ops/custom_ops_tf.py:find_neighbors_no_grid"]}
{"id": "C23", "title": "Transposition swaps the roles of the clouds", "statement": "A transposed neighbourhood contains the pair (c,p) exactly when the neighbourhood contains (p,c), for both the recomputed and the index-based transposition, and transposing the neighbourhood of a cloud with itself changes nothing; the neighbour relation of a cloud with itself is symmetric.", "quantifier": "every neighbourhood", "why_tests_cant": "All relations between arbitrary clouds.", "anchors": ["pylib/pc/Neighborhood.py:Neighborhood.transpose", "pylib/pc/Neighborhood.py:_NeighborhoodTransposed"]}
{"id": "C24", "title": "Poisson disk sampling terminates", "statement": "With a positive radius, Poisson disk sampling stops after at most N selections, whatever random choices are made.", "quantifier": "every point cloud, every positive radius, every sequence of random choices", "why_tests_cant": "Quantifies over all random schedules.", "anchors": ["pylib/pc/custom_ops/custom_ops_tf.py:sampling_tf", "pylib/pc/sampling.py:sample"]}
{"id": "C25", "title": "Poisson samples are separated", "statement": "Any two distinct selected points of one batch element are at distance at least the radius, no point is selected twice, for every sequence of random choices.", "quantifier": "every point cloud, radius and random choice sequence", "why_tests_cant": "Quantifies over all random schedules.", "anchors": ["pylib/pc/custom_ops/custom_ops_tf.py:sampling_tf", "pylib/pc/sampling.py:sample"]}
{"id": "C26", "title": "Poisson samples cover the cloud", "statement": "When Poisson disk sampling stops, every input point is within the radius of a selected point of its own batch element; in particular every non-empty batch element keeps at least one point.", "quantifier": "every point cloud, positive radius and random choice sequence", "why_tests_cant": "Quantifies over all random schedules.", "anchors": ["pylib/pc/custom_ops/custom_ops_tf.py:sampling_tf", "pylib/pc/sampling.py:sample"]}
{"id": "C27", "title": "Sample indices identify input points", "statement": "sample(neighborhood,'poisson') returns a cloud whose k-th point and batch id equal those of the input cloud at the k-th returned index, with the same batch size as the input.", "quantifier": "every point cloud and random choice sequence", "why_tests_cant": "All sort orders and schedules.", "anchors": ["pylib/pc/sampling.py:sample", "pylib/pc/sampling.py:poisson_disk_sampling"]}
{"id": "C28", "title": "The sampling helpers do what their names say", "statement": "poisson_disk_sampling returns a Poisson disk sample and cell_average_sampling returns the cell averages; both accept a scalar radius / cell size.", "quantifier": "every point cloud and argument combination", "why_tests_cant": "Dispatch must be right for every argument combination.", "anchors": ["pylib/pc/sampling.py:poisson_disk_sampling", "pylib/pc/sampling.py:cell_average_sampling", "pylib/pc/sampling.py:sample_modes"]}
{"id": "C29", "title": "Cell average sampling: one sample per occupied cell", "statement": "Cell average sampling returns exactly one sample for each grid cell that holds a point, equal to the mean of the cell's points and carrying their batch id.", "quantifier": "every point cloud and cell sizes", "why_tests_cant": "All occupancy patterns.", "anchors": ["pylib/pc/custom_ops/custom_ops_tf.py:sampling_tf", "pylib/pc/sampling.py:sample"]}
{"id": "C30", "title": "Cell average sampling conserves mass and stays inside", "statement": "The count-weighted sum of the cell averages of a batch element equals the sum of its points, the counts add up to its number of points, each sample lies in the cell's box (hence in the bounding box), and every non-empty batch element keeps at least one sample.", "quantifier": "every point cloud and cell sizes", "why_tests_cant": "Conservation law for all inputs.", "anchors": ["pylib/pc/custom_ops/custom_ops_tf.py:sampling_tf"]}
{"id": "C31", "title": "Point hierarchies are well formed", "statement": "A hierarchy built from k cell sizes has k+1 levels; every level has the same batch size and dimension; the number of points per batch element never increases from level to level and stays positive for non-empty elements; with Poisson sampling every level is a subset of the previous level.", "quantifier": "every point cloud, every list of cell sizes, every sequence of random choices", "why_tests_cant": "Induction over arbitrarily many levels and schedules.", "anchors": ["pylib/pc/PointHierarchy.py:PointHierarchy.__init__", "pylib/pc/PointHierarchy.py:__len__", "pylib/pc/PointHierarchy.py:__getitem__"]}
{"id": "C32", "title": "Cell sizes with too few entries are completed with their last value", "statement": "When a cell size with fewer than D entries is given to PointHierarchy, the missing entries are filled with its last value; more than D entries are rejected.", "quantifier": "every dimension D and every list of cell sizes", "why_tests_cant": "All lengths and values.", "anchors": ["pylib/pc/PointHierarchy.py:PointHierarchy.__init__"]}
{"id": "C33", "title": "Densities are positive", "statement": "The density of every point of a cloud w.r.t. a neighbourhood of the cloud with itself is at least the value of its own kernel contribution, hence strictly positive, so dividing by it is safe.", "quantifier": "every cloud, positive radius and bandwidth", "why_tests_cant": "Universal lower bound.", "anchors": ["pylib/pc/custom_ops/custom_ops_tf.py:compute_pdf_tf", "pylib/pc/Neighborhood.py:Neighborhood.compute_pdf"]}
{"id": "C34", "title": "Densities depend only on relative positions", "statement": "Densities are unchanged when all points are translated by one vector, or when radius and coordinates are scaled by the same positive factor, and do not depend on the order in which neighbours are listed.", "quantifier": "every cloud, translation, scale and neighbour order", "why_tests_cant": "Invariance over a continuous group.", "anchors": ["pylib/pc/custom_ops/custom_ops_tf.py:compute_pdf_tf"]}
{"id": "C35", "title": "Density queries honour their arguments", "statement": "get_pdf(**kwargs) returns the density for the passed arguments whatever was called before on the neighbourhood.", "quantifier": "every call history", "why_tests_cant": "Memoisation over call histories.", "anchors": ["pylib/pc/Neighborhood.py:Neighborhood.get_pdf", "pylib/pc/Neighborhood.py:Neighborhood.compute_pdf"]}
{"id": "C36", "title": "Normalised densities", "statement": "With normalize=True each density is divided by the size of the neighbourhood it belongs to, so with KDEMode.no_pdf the values of every non-empty neighbourhood add up to 1.", "quantifier": "every neighbourhood", "why_tests_cant": "All neighbourhood sizes.", "anchors": ["pylib/pc/Neighborhood.py:Neighborhood.compute_pdf", "pylib/pc/Neighborhood.py:density_estimation_in_neighborhoods"]}
{"id": "C37", "title": "Free-standing density estimation works", "statement": "density_estimation(point_cloud, ...) returns one density per point of the input cloud, in input order, for every KDEMode.", "quantifier": "every cloud and mode", "why_tests_cant": "All modes and clouds.", "anchors": ["pylib/pc/Neighborhood.py:density_estimation"]}
{"id": "C38", "title": "Basis projection is the neighbourhood sum", "statement": "basis_proj returns for centre c, feature channel f and basis k the sum over the neighbours p of c of feature[p,f]*basis[(p,c),k], and zero for centres without neighbours; it is linear in features and in basis values and independent of the order of the neighbour list.", "quantifier": "every neighbourhood, all features and basis values", "why_tests_cant": "Algebraic laws for all inputs.", "anchors": ["pylib/pc/custom_ops/custom_ops_tf.py:basis_proj_tf"]}
{"id": "C39", "title": "KPConv zero padding has no effect", "statement": "Padding the kernel weights to 8, 16, 32 or 64 columns before the projection and slicing afterwards gives the same result as no padding, for every number of kernel points, and the padded count is one the custom op accepts whenever there are at most 64 kernel points.", "quantifier": "every number of kernel points, weights, features, neighbourhood", "why_tests_cant": "All kernel sizes.", "anchors": ["pylib/pc/layers/KPConv.py:_kp_conv"]}
{"id": "C40", "title": "KPConv kernel weights", "statement": "Linear kernel weights lie in [0,1], are 1 exactly at the kernel point and 0 exactly from distance sigma on; Gaussian weights lie in (0,1] and are 1 exactly at distance 0; both decrease with distance; the default influence distance is conv_radius/2.5.", "quantifier": "every distance and positive sigma", "why_tests_cant": "Real inequalities.", "anchors": ["pylib/pc/layers/KPConv.py:_linear_weighting", "pylib/pc/layers/KPConv.py:_gaussian_weighting", "pylib/pc/layers/KPConv.py:__call__"]}
{"id": "C41", "title": "Convolution layers are translation invariant and linear in the features", "statement": "MCConv, PointConv and KPConv outputs do not change when input and output cloud are translated by the same vector, and are linear in the input features for fixed weights (rigid KPConv).", "quantifier": "all clouds, weights, features, translations", "why_tests_cant": "Continuous symmetry.", "anchors": ["pylib/pc/layers/MCConv.py:_monte_carlo_conv", "pylib/pc/layers/PointConv.py:_point_conv", "pylib/pc/layers/KPConv.py:_kp_conv"]}
{"id": "C42", "title": "MCConv splits output channels over its MLPs", "statement": "MCConv is constructible exactly when num_mlps divides num_features_out, and then output channel o is computed by MLP o / (num_features_out/num_mlps) from the basis block of that MLP only.", "quantifier": "all channel and MLP counts", "why_tests_cant": "Index arithmetic of nested reshapes/transposes for all sizes.", "anchors": ["pylib/pc/layers/MCConv.py:__init__", "pylib/pc/layers/MCConv.py:_monte_carlo_conv"]}
{"id": "C43", "title": "Max pooling", "statement": "Max pooling (local and global) returns for each output point / batch element an upper bound of the pooled features that is attained by one of them, whenever the neighbourhood / batch element is non-empty; it commutes with monotone maps and does not depend on point order.", "quantifier": "all clouds, features", "why_tests_cant": "Order-theoretic laws for all inputs.", "anchors": ["pylib/pc/layers/Pooling.py:GlobalMaxPooling", "pylib/pc/layers/Pooling.py:MaxPooling"]}
{"id": "C44", "title": "Average pooling", "statement": "Average pooling returns the mean of the pooled features (between their minimum and maximum, exact on constant features, linear), and 0 for empty neighbourhoods.", "quantifier": "all clouds, features", "why_tests_cant": "All inputs.", "anchors": ["pylib/pc/layers/Pooling.py:GlobalAveragePooling", "pylib/pc/layers/Pooling.py:AveragePooling"]}
{"id": "C45", "title": "Pooling accepts the documented radius arguments", "statement": "Local pooling accepts a float radius as documented.", "quantifier": "every point cloud and radius", "why_tests_cant": "API contract.", "anchors": ["pylib/pc/layers/Pooling.py:_LocalPointPooling.__call__"]}
{"id": "C46", "title": "Conv1x1 acts point-wise", "statement": "Conv1x1 output at a point is an affine function of that point's features only, equal for all points, commuting with any reordering of the points.", "quantifier": "all features, weights", "why_tests_cant": "All inputs.", "anchors": ["pylib/pc/layers/Conv1x1.py:__call__"]}
{"id": "C47", "title": "Random rotations are isometries", "statement": "random_rotation preserves all distances and norms for every choice of random angles, and is orientation preserving.", "quantifier": "all angles and points", "why_tests_cant": "Continuous parameters.", "anchors": ["pylib/pc/layers/utils.py:random_rotation"]}
{"id": "C48", "title": "Spherical kernel points are distinct points of the unit ball", "statement": "spherical_kernel_points(n) returns n pairwise different points inside the closed unit ball for each supported n, for every random rotation, and raises ValueError for every other n.", "quantifier": "every n and every rotation", "why_tests_cant": "All rotations; irrational coordinates.", "anchors": ["pylib/pc/layers/utils.py:spherical_kernel_points", "pylib/pc/layers/utils.py:_hexagon", "pylib/pc/layers/utils.py:_pentagon"]}
{"id": "C49", "title": "Text loader returns the numbers in the file", "statement": "load_points_from_file_to_tensor returns one row per line whose first D1 fields are the point and the remaining fields the feature, for every text file with or without final newline.", "quantifier": "every file content, delimiter, dimension", "why_tests_cant": "All file contents, final newline or not, any field width.", "anchors": ["pylib/io/points.py:load_points_from_file_to_tensor"]}
{"id": "C50", "title": "Line limit of the numpy loader", "statement": "load_points_from_file_to_numpy reads all lines without max_num_points and the first m lines with max_num_points=m.", "quantifier": "every file, every m", "why_tests_cant": "All files and limits.", "anchors": ["pylib/io/points.py:load_points_from_file_to_numpy"]}
{"id": "C51", "title": "Batch loader pads to a common size", "statement": "load_batch_of_points returns for every file its rows followed by zero rows up to the largest file, sizes equal to the row counts, arranged in row-major batch shape; a batch shape whose product is not the number of files is rejected.", "quantifier": "all file lists, shapes", "why_tests_cant": "All file counts and shapes.", "anchors": ["pylib/io/points.py:load_batch_of_points"]}
{"id": "C52", "title": "Residual blocks align features with points", "statement": "In PointResNet without a given neighbourhood, each convolution output row belongs to the point with the same row in the input cloud, so the skip connection adds features of the same point.", "quantifier": "every point cloud", "why_tests_cant": "Depends on the sort order of every cloud.", "anchors": ["pylib/pc/layers/network_blocks.py:PointResNet.__call__"]}
{"id": "C53", "title": "Keys decode to batch and cell (CUDA)", "statement": "For every key computed by the CUDA grid code, decoding yields the batch id and cell it was computed from, encoding equals the documented formula, and the 2D cell index from key and from cell agree.", "quantifier": "all dimensions, cell counts, cells and batch ids", "why_tests_cant": "Mixed radix arithmetic for any sizes.", "anchors": ["custom_ops/tfg_custom_ops/shared/cc/kernels/grid_utils.h"]}
{"id": "C54", "title": "Parallel construction of the 2D access structure", "statement": "The CUDA kernel that builds the 2D access structure yields for every thread schedule and launch geometry the same table, equal to the table of the pure TensorFlow version for all non-empty cells, with no two threads writing the same entry.", "quantifier": "every sorted key array, every interleaving of threads, every number of blocks and threads", "why_tests_cant": "All schedules.", "anchors": ["custom_ops/tfg_custom_ops/build_grid_ds/cc/kernels/build_grid_ds_kernels.cu.cc"]}
{"id": "C55", "title": "Binary search ranges of the CUDA neighbour search", "statement": "For every centre and cell offset the kernel's two binary searches return exactly the sorted points of the 2D tube whose key lies within one of the shifted centre key, and stop after finitely many steps.", "quantifier": "all sorted key arrays, tubes and keys", "why_tests_cant": "All arrays; off-by-one and non-termination.", "anchors": ["custom_ops/tfg_custom_ops/find_neighbors/cc/kernels/find_ranges_grid_ds_kernels.cu.cc"]}
{"id": "C56", "title": "CUDA neighbour search is sound, complete and duplicate free", "statement": "With radii not larger than the cell sizes, the CUDA search reports every point with scaled distance below 1 of the same batch element exactly once and nothing else.", "quantifier": "every cloud, dimension 2..6, radii <= cell sizes", "why_tests_cant": "All geometric configurations and dimensions.", "anchors": ["custom_ops/tfg_custom_ops/find_neighbors/cc/ops/find_neighbors_ops.cpp", "custom_ops/tfg_custom_ops/find_neighbors/cc/kernels/find_ranges_grid_ds_kernels.cu.cc", "custom_ops/tfg_custom_ops/find_neighbors/cc/kernels/count_neighbors_kernels.cu.cc", "custom_ops/tfg_custom_ops/find_neighbors/cc/kernels/store_neighbors_kernels.cu.cc"]}
{"id": "C57", "title": "Parallel scan computes exclusive prefix sums", "statement": "The work-efficient block scan used to place neighbours returns, for arrays of any length, the exclusive prefix sums of its input and the total.", "quantifier": "all arrays of any length", "why_tests_cant": "All lengths, multi-level block structure.", "anchors": ["custom_ops/tfg_custom_ops/find_neighbors/cc/kernels/scan_alg_kernels.cu.cc"]}
{"id": "C58", "title": "Storing neighbours under every schedule", "statement": "Without a neighbour limit, for every interleaving of the atomic increments each centre's slot range holds exactly its neighbours, every slot is written exactly once, and the final ranges are the cumulative counts.", "quantifier": "every interleaving of threads", "why_tests_cant": "All schedules.", "anchors": ["custom_ops/tfg_custom_ops/find_neighbors/cc/kernels/store_neighbors_kernels.cu.cc"]}
{"id": "C59", "title": "Neighbour limit respects slot ownership", "statement": "With a neighbour limit m every centre gets min(m, count) distinct neighbours, and no thread writes into the slots of another centre, under every interleaving.", "quantifier": "every interleaving of threads, every limit", "why_tests_cant": "All schedules; rare races.", "anchors": ["custom_ops/tfg_custom_ops/find_neighbors/cc/kernels/store_neighbors_kernels.cu.cc"]}
{"id": "C60", "title": "Parallel Poisson sampling", "statement": "The CUDA Poisson disk sampling selects, for every schedule of the threads inside its parity phases, a set of points that is separated and covers the cloud; cells processed in one phase never contain neighbouring points of different cells.", "quantifier": "every cloud, dimension, schedule", "why_tests_cant": "All schedules.", "anchors": ["custom_ops/tfg_custom_ops/sampling/cc/kernels/count_sampling_pd_kernels.cu.cc"]}
{"id": "C61", "title": "CUDA cell averages", "statement": "The CUDA cell average sampling emits one sample per distinct key for every schedule, the mean of the points with that key and the batch id encoded in it; as a set of samples the result does not depend on the schedule.", "quantifier": "every cloud and schedule", "why_tests_cant": "All schedules.", "anchors": ["custom_ops/tfg_custom_ops/sampling/cc/kernels/count_unique_keys_kernels.cu.cc", "custom_ops/tfg_custom_ops/sampling/cc/kernels/store_unique_keys_kernels.cu.cc", "custom_ops/tfg_custom_ops/sampling/cc/kernels/sampling_avg_kernels.cu.cc"]}
{"id": "C62", "title": "Projection gradients are exact", "statement": "The gradients returned by the custom projection op are the exact partial derivatives of the projection w.r.t. basis values and features (adjoint of the forward map), for all inputs, and the chunked kernels compute the plain sums.", "quantifier": "all neighbourhoods, features, basis values, upstream gradients", "why_tests_cant": "Algebraic identity for all inputs.", "anchors": ["custom_ops/tfg_custom_ops/basis_proj/cc/kernels/basis_proj_grads_kernels.cu.cc", "custom_ops/tfg_custom_ops/basis_proj/cc/kernels/basis_proj_kernels.cu.cc", "pylib/pc/custom_ops/custom_ops_wrapper.py:_basis_proj_grad"]}
{"id": "C63", "title": "Density gradients are exact", "statement": "The gradient op of the density estimation returns the derivative of the density w.r.t. the point coordinates.", "quantifier": "all clouds, bandwidths, radii", "why_tests_cant": "Real calculus identity for all inputs.", "anchors": ["custom_ops/tfg_custom_ops/compute_pdf/cc/kernels/compute_pdf_kernels.cu.cc", "pylib/pc/custom_ops/custom_ops_wrapper.py:_compute_pdf_grad"]}
{"id": "C64", "title": "Compensated summation adds up", "statement": "The compensated (Kahan) accumulation used in the kernels returns in exact arithmetic the plain sum, with zero final compensation.", "quantifier": "all lists of summands", "why_tests_cant": "All lengths.", "anchors": ["custom_ops/tfg_custom_ops/compute_pdf/cc/kernels/compute_pdf_kernels.cu.cc", "custom_ops/tfg_custom_ops/basis_proj/cc/kernels/basis_proj_kernels.cu.cc"]}
{"id": "C65", "title": "Scalar arguments are broadcast to all dimensions", "statement": "A scalar or one-element radius / cell size / bandwidth is used for each of the D dimensions, a D-vector is used as is.", "quantifier": "all D and values", "why_tests_cant": "All D.", "anchors": ["pylib/pc/utils.py:cast_to_num_dims", "pylib/pc/Grid.py:Grid.__init__", "pylib/pc/Neighborhood.py:Neighborhood.__init__"]}
{"id": "C66", "title": "set_batch_shape shows in all views", "statement": "After a successful set_batch_shape(s) the padded tensor of get_points() and the sizes have batch shape s.", "quantifier": "every point cloud (padded or segmented construction), every call history, every shape", "why_tests_cant": "Quantifies over construction modes, histories and shapes.", "anchors": ["pylib/pc/PointCloud.py:set_batch_shape", "pylib/pc/PointCloud.py:get_points", "pylib/pc/PointCloud.py:_init_from_padded"]}
{"id": "C67", "title": "sizes given with 2-D points are consistent with the points", "statement": "A cloud constructed from 2-D points and sizes has one batch id per point, sizes[b] consecutive points belonging to element b; sizes that do not add up to the number of points are rejected.", "quantifier": "every list of points and sizes", "why_tests_cant": "All size vectors.", "anchors": ["pylib/pc/PointCloud.py:_init_from_segmented", "pylib/pc/utils.py:check_valid_point_cloud_input"]}
{"id": "C68", "title": "A hierarchy's neighbourhoods connect consecutive levels", "statement": "get_neighborhood(i) returns the neighbourhood between level i and level i+1, for every i in [-num_levels, num_levels-1].", "quantifier": "every hierarchy and index", "why_tests_cant": "All clouds, cell sizes, random choices and indices.", "anchors": ["pylib/pc/PointHierarchy.py:get_neighborhood", "pylib/pc/PointHierarchy.py:PointHierarchy.__init__"]}
{"id": "C69", "title": "Transposed neighbourhoods of a hierarchy", "statement": "get_neighborhood(i, transposed=True) returns the transposed neighbourhood, and without index the list of all transposed neighbourhoods.", "quantifier": "every hierarchy and index", "why_tests_cant": "All hierarchies.", "anchors": ["pylib/pc/PointHierarchy.py:get_neighborhood"]}
{"id": "C70", "title": "set_batch_shape of a hierarchy acts on all levels or on none", "statement": "PointHierarchy.set_batch_shape(s) sets the batch shape of every level if the entries of s multiply to the batch size, otherwise it raises and changes no level; points and batch ids never change.", "quantifier": "every hierarchy, every history of calls on its levels, every shape", "why_tests_cant": "All hierarchies and histories.", "anchors": ["pylib/pc/PointHierarchy.py:set_batch_shape", "pylib/pc/PointCloud.py:set_batch_shape"]}
{"id": "C71", "title": "get_points(id) of a hierarchy", "statement": "PointHierarchy.get_points(id) returns one tensor per level holding exactly the points of batch element id of this level in order; their number never increases from level to level and is positive on all levels if it is on the first.", "quantifier": "every hierarchy and valid id, every sequence of random choices", "why_tests_cant": "Induction over levels and schedules.", "anchors": ["pylib/pc/PointHierarchy.py:get_points"]}
{"id": "C72", "title": "Densities inside neighbourhoods", "statement": "The density inside neighbourhoods returns one value per neighbour pair (p, c): the sum over all neighbours q of c of the product over dimensions of the kernel at (p - q)/(bandwidth * radius), divided by the product of the bandwidths.", "quantifier": "every cloud, neighbour list with consistent ranges, bandwidth and radius", "why_tests_cant": "Index juggling with repeats, masks and offsets must be right for all neighbourhood sizes, including empty ones.", "anchors": ["pylib/pc/custom_ops/custom_ops_tf.py:compute_pdf_inside_neighborhoods_tf"]}
{"id": "C73", "title": "Convolution layers do not depend on the order of the points", "statement": "Reordering the points of the input cloud together with their features leaves the output of MCConv, PointConv and KPConv unchanged; reordering the points of the output cloud permutes the output rows accordingly.", "quantifier": "all clouds, weights, features, permutations", "why_tests_cant": "All permutations of all clouds; grid sorting, neighbour lists and segment sums all depend on the order.", "anchors": ["pylib/pc/layers/MCConv.py:__call__", "pylib/pc/layers/PointConv.py:__call__", "pylib/pc/layers/KPConv.py:__call__"]}
{"id": "C74", "title": "Convolution layers are invariant under joint scaling", "statement": "Scaling input and output cloud and the radius (for KPConv also a given influence distance) by the same positive factor does not change the output of MCConv, KPConv and PointConv.", "quantifier": "all clouds, weights, features, factors", "why_tests_cant": "Continuous symmetry.", "anchors": ["pylib/pc/layers/MCConv.py:__call__", "pylib/pc/layers/PointConv.py:__call__", "pylib/pc/layers/KPConv.py:__call__"]}
{"id": "C75", "title": "KPConv works with any number of custom kernel points", "statement": "KPConv with custom_kernel_points of shape [K,D] returns one row per output point, to which each of the K kernel points contributes.", "quantifier": "every K and num_kernel_points, all clouds and features", "why_tests_cant": "Shapes of padding, slicing and reshape interact for all counts.", "anchors": ["pylib/pc/layers/KPConv.py:__init__", "pylib/pc/layers/KPConv.py:_kp_conv"]}
{"id": "C76", "title": "Regularization loss of deformable KPConv", "statement": "regularization_loss() of a deformable layer is the sum over output points and kernel points of the smallest squared normalised distance to a neighbour plus the kernel weights of all pairs of different displaced kernel points; it is non-negative and bounded by the geometry for every pair of clouds.", "quantifier": "all clouds, weights, features", "why_tests_cant": "Holds or fails depending on empty neighbourhoods of arbitrary clouds.", "anchors": ["pylib/pc/layers/KPConv.py:regularization_loss", "pylib/pc/layers/KPConv.py:_kernel_offsets"]}
{"id": "C77", "title": "Padded result of global pooling", "statement": "Global max and average pooling with return_padded=True return a tensor whose leading dimensions are the batch shape of the cloud and whose entry at a multi index is the pooled feature of this batch element.", "quantifier": "every cloud, padded or given by batch ids, and all features", "why_tests_cant": "All batch shapes and ways to construct clouds.", "anchors": ["pylib/pc/layers/Pooling.py:GlobalMaxPooling.__call__", "pylib/pc/layers/Pooling.py:GlobalAveragePooling.__call__"]}
{"id": "C78", "title": "Cube kernel points form the regular lattice", "statement": "cube_kernel_points(m) returns the m^3 points of the regular lattice in the unit cube, each exactly once, corners included for m >= 2.", "quantifier": "every m", "why_tests_cant": "All sizes.", "anchors": ["pylib/pc/layers/utils.py:cube_kernel_points"]}
{"id": "C79", "title": "Residual networks work with every documented layer type", "statement": "PointResNet can be constructed and called with layer_type 'MCConv', 'KPConv' and 'PointConv', and the bottleneck variants can be constructed for every number of blocks.", "quantifier": "every layer type, number of blocks, further keyword arguments, cloud and features", "why_tests_cant": "All combinations of options.", "anchors": ["pylib/pc/layers/network_blocks.py:PointResNet.__call__", "pylib/pc/layers/network_blocks.py:PointResNetBottleNeck.__init__", "pylib/pc/layers/KPConv.py:__call__"]}
{"id": "C80", "title": "Mesh batch loader pads to a common size", "statement": "load_batch_of_meshes returns for every mesh its vertices followed by zero rows up to the largest mesh and the vertex counts as sizes, in the requested batch shape, where one entry may be -1; if it returns, the shapes have one entry per mesh.", "quantifier": "all lists of meshes and batch shapes", "why_tests_cant": "All mesh counts, sizes and shapes.", "anchors": ["pylib/io/points.py:load_batch_of_meshes"]}
{"id": "C81", "title": "CUDA and TensorFlow compute the same keys", "statement": "The CUDA key kernel and the TensorFlow implementation assign every point of every cloud the same cell key, and the kernel writes exactly this array for every thread schedule.", "quantifier": "every cloud, dimension, cell size, number of threads and interleaving", "why_tests_cant": "All clouds and schedules; the two implementations clamp differently.", "anchors": ["custom_ops/tfg_custom_ops/compute_keys/cc/kernels/compute_keys_kernels.cu.cc", "custom_ops/tfg_custom_ops/shared/cc/kernels/grid_utils.h", "pylib/pc/custom_ops/custom_ops_tf.py:compute_keys_tf"]}
{"id": "C82", "title": "Replacement over the neighbour limit is random over all slots", "statement": "When a centre has more neighbours than the limit m, a later neighbour is kept with probability m/count and then replaces a uniformly chosen one of the m stored neighbours; in particular every stored neighbour can be replaced for some seed.", "quantifier": "every limit, count and seed", "why_tests_cant": "The draws depend on 2^32 seeds per step; a test sees a few of them.", "anchors": ["custom_ops/tfg_custom_ops/find_neighbors/cc/kernels/store_neighbors_kernels.cu.cc:store_neighbors_limited_gpu_kernel", "custom_ops/tfg_custom_ops/shared/cc/kernels/rnd_utils.h:seed_to_float"]}
{"id": "C83", "title": "Poisson sampling from grid to samples on the GPU", "statement": "Building the grid, searching the neighbours of the sorted points and Poisson disk sampling on the GPU together return, whatever the schedules of the kernels, points of the cloud that are separated by the radii within each batch element and cover every point of the cloud.", "quantifier": "every cloud, radii up to the cell sizes, launch configuration and schedule of every kernel", "why_tests_cant": "The composition of six kernels, each of them with arbitrarily many schedules.", "anchors": ["custom_ops/tfg_custom_ops/sampling/cc/ops/sampling_ops.cpp", "custom_ops/tfg_custom_ops/find_neighbors/cc/ops/find_neighbors_ops.cpp", "pylib/pc/sampling.py:sample"]}
{"id": "C84", "title": "CUDA and TensorFlow densities agree", "statement": "For the same neighbourhood, bandwidth and mode the CUDA density operation and the TensorFlow implementation return the same densities (up to the rounding of the constant in the kernel).", "quantifier": "every cloud, neighbourhood, bandwidth, radii, mode, launch configuration and schedule", "why_tests_cant": "Tests compare two implementations on a few random clouds in one mode.", "anchors": ["custom_ops/tfg_custom_ops/compute_pdf/cc/kernels/compute_pdf_kernels.cu.cc:compute_pdf_gpu_kernel", "pylib/pc/custom_ops/custom_ops_tf.py:compute_pdf_tf", "pylib/pc/custom_ops/custom_ops_wrapper.py:compute_pdf"]}
{"id": "C85", "title": "The density of a point does not depend on the rest of the batch", "statement": "The density returned for a point depends only on the coordinates of the point and of its neighbours, so adding further batch elements does not change the densities of the others.", "quantifier": "every pair of clouds, neighbourhoods and modes", "why_tests_cant": "Relates pairs of runs on arbitrary different batches.", "anchors": ["custom_ops/tfg_custom_ops/compute_pdf/cc/kernels/compute_pdf_kernels.cu.cc:compute_pdf_gpu_kernel", "pylib/pc/Neighborhood.py:compute_pdf"]}
{"id": "C86", "title": "Projection kernels: uniform barriers, memory bounds", "statement": "In the CUDA projection and its gradient all threads of a block pass the barriers of the neighbour loop equally often (no divergence), for every number of neighbours including zero; for every accepted number of basis functions and features all accesses to shared memory stay inside the allocated size, and with valid indices all global writes stay inside the output tensors.", "quantifier": "all accepted sizes, neighbourhoods, schedules, launches", "why_tests_cant": "Barrier divergence and out-of-bounds accesses depend on the number of neighbours of each centre and on the sizes; they are undefined behaviour that tests may not notice.", "anchors": ["custom_ops/tfg_custom_ops/basis_proj/cc/kernels/basis_proj_kernels.cu.cc", "custom_ops/tfg_custom_ops/basis_proj/cc/kernels/basis_proj_grads_kernels.cu.cc"]}
{"id": "C87", "title": "Spatial bottleneck networks keep features and points aligned", "statement": "A network of spatial bottleneck blocks returns on row i the features of point i: the downsampling, inner and upsampling convolutions of every block aggregate the features of the neighbours of the same point whose row they compute; reusing the downsampling neighbourhood for the upsampling step gives what a fresh computation gives.", "quantifier": "all clouds, downsampled clouds, radii, layer types, weights, numbers of blocks and devices", "why_tests_cant": "A misalignment only permutes rows; shapes and finite values are unaffected, so shape tests pass.", "anchors": ["pylib/pc/layers/network_blocks.py:PointResNetSpatialBottleNeck", "pylib/pc/Neighborhood.py:transpose"]}
{"id": "C88", "title": "Data set listing assigns the right class to every model", "statement": "For every category file and listing the script produces one entry per line in order, whose label is the number of the line's category (always a valid class number) and whose path is that model's file; labels of training and test set agree exactly for equal categories; an unknown category raises ValueError.", "quantifier": "all lists of category names and all listings (final line break optional in the category file)", "why_tests_cant": "Tests would check particular listings; a parsing slip would silently mislabel models.", "anchors": ["modelnet40.py", "modelnet40_small.py"]}
{"id": "C89", "title": "Cached data equal the data of the settings", "statement": "Whatever runs of the training script came before, including interrupted ones, a run that is not interrupted trains on the points its own settings ask for.", "quantifier": "all histories of runs with arbitrary settings and all crash points", "why_tests_cant": "Depends on the whole history of earlier runs and on crash points.", "anchors": ["modelnet40.py", "modelnet40_small.py"]}
{"id": "C90", "title": "One pass over the data generator", "statement": "One pass delivers floor(N/B) batches of B rows; no model occurs twice; each row holds the points of its model, scaled per coordinate by factors between 0.9 and 1.1 if augmentation is on, together with that model's label; the stored data are never modified.", "quantifier": "all data sets, batch sizes, permutations and random numbers", "why_tests_cant": "Quantifies over all permutations and random draws.", "anchors": ["modelnet40.py:modelnet_data_generator", "modelnet40_small.py:modelnet_data_generator"]}
{"id": "C91", "title": "Every epoch of training uses every model in a new order", "statement": "In every epoch each model of the training set is fed to the network exactly once, and the order is drawn anew for every epoch.", "quantifier": "all data sets, batch sizes, permutations, numbers of epochs", "why_tests_cant": "Needs all numbers of epochs and permutations; an omitted model leaves no trace in the logs.", "anchors": ["modelnet40.py:modelnet_data_generator", "modelnet40.py:training"]}
{"id": "C92", "title": "Successive calls of the data generator", "statement": "After on_epoch_end the k-th call returns batch k of the new order, whatever calls were made before and whatever batches are indexed explicitly in between; after the last batch every call raises IndexError and leaves the generator unchanged.", "quantifier": "all histories of method calls", "why_tests_cant": "A property of all histories of a stateful object.", "anchors": ["modelnet40.py:modelnet_data_generator.__call__", "modelnet40.py:modelnet_data_generator.on_epoch_end"]}
{"id": "C93", "title": "Learning rate schedule", "statement": "The learning rate is constant within an epoch, equals init * rate^(floor(epoch/20)), and is positive and never increases.", "quantifier": "all numbers of batches per epoch, epochs and steps", "why_tests_cant": "All steps of arbitrarily long trainings.", "anchors": ["modelnet40.py:lr_decay"]}
{"id": "C94", "title": "Batch elements do not influence each other", "statement": "The rows that a convolution, a local or global pooling layer or a 1x1 convolution computes for one batch element, and the points that cell average sampling and every level of a hierarchy of cell averages keep for it, are determined by the points and features of this element alone: they are the same in any two calls sharing this element, whatever the other elements, their number, the order of the points and the device; in particular a batch gives what processing its elements one by one gives. Poisson samples are random: the possible samples and levels of hierarchies of an element are the same in any two calls sharing it, and the choices for different elements are independent, so that every possible result for one can occur together with every possible result for the others.", "quantifier": "all pairs of clouds sharing an element, all features, weights, radii, cell sizes, numbers of levels and devices, all choices of Poisson sampling", "why_tests_cant": "Leakage between elements shows only for particular combinations of elements; tests compare single batches with stored values.", "anchors": ["pylib/pc/layers/MCConv.py:MCConv.__call__", "pylib/pc/layers/PointConv.py:PointConv.__call__", "pylib/pc/layers/KPConv.py:KPConv.__call__", "pylib/pc/layers/Pooling.py", "pylib/pc/layers/Conv1x1.py", "pylib/pc/sampling.py:cell_average_sampling", "pylib/pc/PointHierarchy.py"]}
{"id": "C95", "title": "Pooling along a hierarchy never meets an empty neighbourhood", "statement": "When features are pooled from one level of a point hierarchy to the next with the radius that was used to build that level, every point of the coarser level has at least one neighbour in the finer level, so max pooling never returns the lowest float and average pooling never averages nothing.", "quantifier": "every valid input cloud, every list of isotropic cell sizes, every pooling mode, every level of the hierarchy, every point of the level", "why_tests_cant": "Whether a cell average lies within the pooling radius of some point of its cell is a geometric fact about all arrangements of points in a cell and depends on the dimension; tests with uniform random points in 3D never meet the extreme arrangements.", "anchors": ["pylib/pc/PointHierarchy.py:PointHierarchy", "pylib/pc/sampling.py:sample", "pylib/pc/layers/Pooling.py:_LocalPointPooling", "modelnet40.py:mymodel"]}
{"id": "C96", "title": "Every point of a level is used by the strided layer", "statement": "A layer going from one level of a hierarchy to the next coarser one with a radius at least the sampling radius of that level sees every point of the finer level: each of them is a neighbour of at least one point of the coarser level, so no input is silently ignored.", "quantifier": "every valid input cloud, every sampling radius, every sampling mode, every point of the finer level", "why_tests_cant": "Coverage must hold for all point arrangements; random test clouds rarely contain the isolated corner points that a cell average of the same radius leaves uncovered.", "anchors": ["pylib/pc/sampling.py:sample", "pylib/pc/PointHierarchy.py:PointHierarchy", "modelnet40.py:conv_block", "modelnet40_small.py:mymodel"]}
{"id": "C97", "title": "Logits of a shape do not depend on the rest of the batch (ModelNet40 network)", "statement": "At inference the classification network of modelnet40.py, fed with the constant features of its data pipeline and cell average sampling, returns one row of logits per shape, and the row of a shape is the same whatever other shapes are in the batch, at whatever position it stands, however much it is padded and in whatever order its points are listed. With non-empty shapes on the GPU the call raises no exception.", "quantifier": "every network (weights, number of levels, radii), every batch of padded shapes, every second batch containing a permutation of one of the shapes, every position", "why_tests_cant": "The statement compares all pairs of batches; a test compares a few and cannot exclude that ids, sort orders or paddings of some other batch leak into the row of a shape.", "anchors": ["modelnet40.py:mymodel", "modelnet40.py:conv_block", "pylib/pc/PointHierarchy.py:PointHierarchy", "pylib/pc/layers/Pooling.py:GlobalAveragePooling"]}
{"id": "C98", "title": "One row of logits per shape (small ModelNet40 network)", "statement": "The classification network of modelnet40_small.py, which has no global pooling and takes the points of the last level for the shapes, returns exactly one row of logits per shape, in the order of the shapes; at inference the row is determined by the points and features of that shape alone. With non-empty shapes on the GPU the call raises no exception.", "quantifier": "every network, every batch of padded shapes with arbitrary features, both sampling modes for the number of rows, every other batch containing the shape", "why_tests_cant": "Whether the last level has one point per shape depends on the extents of every shape of every batch; the network itself checks nothing.", "anchors": ["modelnet40_small.py:mymodel", "pylib/pc/PointHierarchy.py:PointHierarchy", "pylib/pc/sampling.py:sample"]}
{"id": "C99", "title": "The first convolution sees features of the points it convolves", "statement": "In modelnet40.py the feature that the initial convolution uses for a point of the first sampled level is the feature of an input point that the sample represents, so coordinates or normals used as input features belong to the neighbourhood of the sample.", "quantifier": "every input cloud, every cell size, every feature assignment, every point of the first level", "why_tests_cant": "With the constant features used by the script any assignment of rows to points gives the same result, so no run of the script shows whether rows are taken from the right points.", "anchors": ["modelnet40.py:mymodel", "pylib/pc/layers/MCConv.py:MCConv"]}
{"id": "C100", "title": "Keys are exact in machine integers", "statement": "The key of a point computed in the integer type of the code (32 bit in the TensorFlow implementation, 64 bit in the CUDA kernels) equals the mathematical key, so points of different cells or of different batch elements never share a key, and table indices computed from keys and from cells coincide.", "quantifier": "every grid, every number of dimensions, batch elements and cells, every point", "why_tests_cant": "Overflow starts at 2^31 cells over all batch elements, beyond any test cloud; whether every intermediate product stays exact has to be shown for all sizes below the limit.", "anchors": ["pylib/pc/custom_ops/custom_ops_tf.py:compute_keys_tf", "custom_ops/tfg_custom_ops/shared/cc/kernels/grid_utils.h:compute_key_gpu_funct", "pylib/pc/Grid.py:Grid"]}
{"id": "C101", "title": "Dividing keys in floating point does not change the table index", "statement": "The access structure of the TensorFlow implementation divides integer keys with a floating point division and takes the floor; the index obtained is the exact integer quotient, i.e. the 2D cell of the point.", "quantifier": "every key below 2^p and every positive divisor, every monotone rounding that is exact on integers below 2^p and has relative error at most 2^-p (float64: p = 53)", "why_tests_cant": "The number of pairs of keys and divisors is beyond testing, and an error would show only for quotients just below an integer.", "anchors": ["pylib/pc/custom_ops/custom_ops_tf.py:build_grid_ds_tf"]}
{"id": "C102", "title": "Points stay inside the grid whatever rounding does", "statement": "The cell computed for a point of the cloud lies inside the grid even when coordinates, extents and quotients are rounded, so that its key lies in the range of its own batch element and its table index inside the table.", "quantifier": "every rounding (CUDA: arbitrary quotients), every cloud, cell size, number of dimensions and batch elements", "why_tests_cant": "Depends on the rounding of a quotient for a point on the border of the bounding box; a test covers single coordinates.", "anchors": ["pylib/pc/custom_ops/custom_ops_tf.py:compute_keys_tf", "custom_ops/tfg_custom_ops/shared/cc/kernels/grid_utils.h:compute_cell_gpu_funct", "pylib/pc/PointCloud.py:_AABB", "pylib/pc/Grid.py:Grid"]}
{"id": "C103", "title": "GPU kernels stay inside their arrays", "statement": "Every kernel of the custom operations reads and writes only entries of the arrays it is given: the first N keys and points, the entries of the access structure, the neighbour pairs and their ends, the shared arrays of its block, and the entries of the tensor it fills.", "quantifier": "every input, every number of threads and blocks, every schedule, arbitrary contents of memory before and behind the arrays", "why_tests_cant": "An access outside of an array often goes unnoticed in a test because the memory behind it is mapped; whether an index computed from data or by a race can leave the array needs an argument for all inputs and schedules.", "anchors": ["custom_ops/tfg_custom_ops/build_grid_ds/cc/kernels/build_grid_ds_kernels.cu.cc", "custom_ops/tfg_custom_ops/find_neighbors/cc/kernels/find_ranges_grid_ds_kernels.cu.cc", "custom_ops/tfg_custom_ops/find_neighbors/cc/kernels/count_neighbors_kernels.cu.cc", "custom_ops/tfg_custom_ops/find_neighbors/cc/kernels/store_neighbors_kernels.cu.cc", "custom_ops/tfg_custom_ops/sampling/cc/kernels/sampling_avg_kernels.cu.cc", "custom_ops/tfg_custom_ops/sampling/cc/kernels/count_sampling_pd_kernels.cu.cc", "custom_ops/tfg_custom_ops/compute_pdf/cc/kernels/compute_pdf_kernels.cu.cc"]}
{"id": "C104", "title": "The GPU operations accept every documented call", "statement": "Building a grid, searching neighbours, computing densities (and their gradients) and sampling on the GPU runs for every non-empty cloud with the documented shapes of cell sizes, radius and bandwidth; calls that the kernels cannot handle raise an error.", "quantifier": "every number of points, batch elements, dimensions and centres, every documented or wrong shape of the arguments, every device size", "why_tests_cant": "tests use 2 or 3 dimensions, non-empty clouds and matching batch sizes", "anchors": ["custom_ops/tfg_custom_ops/find_neighbors/cc/ops/find_neighbors_ops.cpp:FindNeighborsOp", "custom_ops/tfg_custom_ops/compute_keys/cc/ops/compute_keys_ops.cpp:ComputeKeysOp", "custom_ops/tfg_custom_ops/build_grid_ds/cc/ops/build_grid_ds_ops.cpp:BuildGridDsOp", "custom_ops/tfg_custom_ops/compute_pdf/cc/ops/compute_pdf_ops.cpp:ComputePDFOp", "custom_ops/tfg_custom_ops/sampling/cc/ops/sampling_ops.cpp:SamplingOp", "custom_ops/tfg_custom_ops/shared/cc/kernels/tf_gpu_device.cpp:check_error", "pylib/pc/custom_ops/custom_ops_wrapper.py", "pylib/pc/Grid.py:Grid"]}
{"id": "C105", "title": "Convolution layers work on the GPU for every layer size", "statement": "A convolution layer that can be constructed can be evaluated with the custom operations, forward and backward; in particular all convolutions of the ModelNet40 network.", "quantifier": "every number of input features, MLPs, hidden units and kernel points, every list of feature sizes of the network", "why_tests_cant": "tests use a handful of layer sizes, all powers of two", "anchors": ["custom_ops/tfg_custom_ops/basis_proj/cc/ops/basis_proj_ops.cpp:BasisProjOp", "custom_ops/tfg_custom_ops/basis_proj/cc/ops/basis_proj_ops.cpp:BasisProjGradsOp", "pylib/pc/layers/MCConv.py:MCConv", "pylib/pc/layers/KPConv.py:KPConv", "pylib/pc/layers/PointConv.py:PointConv", "modelnet40.py:conv_block"]}
{"id": "C106", "title": "The neighbour search on the GPU handles clouds of every size", "statement": "Every centre of a neighbour search on the GPU gets exactly its neighbours, and every entry of the 2D access structure is initialised, however many points, centres and cells there are.", "quantifier": "every number of samples, every cloud, every range and test result, all launch sizes and schedules, every number of batch elements and cells", "why_tests_cant": "tests use a few thousand points; the 32 bit loop bound wraps around from 29826162 centres on", "anchors": ["custom_ops/tfg_custom_ops/find_neighbors/cc/kernels/count_neighbors_kernels.cu.cc:count_neighbors_gpu_kernel", "custom_ops/tfg_custom_ops/find_neighbors/cc/kernels/store_neighbors_kernels.cu.cc:store_neighbors_gpu_kernel", "custom_ops/tfg_custom_ops/find_neighbors/cc/kernels/find_ranges_grid_ds_kernels.cu.cc:find_ranges_grid_ds_gpu", "custom_ops/tfg_custom_ops/find_neighbors/cc/ops/find_neighbors_ops.cpp:FindNeighborsOp", "custom_ops/tfg_custom_ops/build_grid_ds/cc/ops/build_grid_ds_ops.cpp:BuildGridDsOp"]}
{"id": "C107", "title": "The TensorFlow and the CUDA neighbour search agree", "statement": "Whether or not the package of custom operations is installed, a neighbourhood computed for the same clouds, cell sizes, radii and limit contains the same pairs of points.", "quantifier": "every dimension from 2 on, every pair of clouds, grid, radii and limit, every schedule of the table kernel", "why_tests_cant": "tests run one implementation at a time, with one radius equal to the cell size, and never compare the pairs of both on general inputs", "anchors": ["pylib/pc/custom_ops/__init__.py", "pylib/pc/custom_ops/custom_ops_tf.py:find_neighbors_tf", "pylib/pc/custom_ops/custom_ops_wrapper.py:find_neighbors", "pylib/pc/Neighborhood.py:compute_neighborhoods"]}
{"id": "C108", "title": "A layer on the GPU, from the points to its output", "statement": "Called on the same clouds, features and weights, a convolution or pooling layer returns the same output whether its neighbour search, density estimate and projection run as CUDA kernels or as TensorFlow operations, whatever the order in which the threads of the kernels run (a density constant of eight digits accounts for a relative deviation of at most 2e-8 of the Monte-Carlo convolution; rounding aside).", "quantifier": "every dimension from 2 on, every pair of clouds, features, weights, radius and bandwidth, every launch size and every schedule of every kernel of the call", "why_tests_cant": "tests compare single operations on small random inputs under the schedules that happen to occur; the composition under all schedules is never exercised", "anchors": ["pylib/pc/layers/MCConv.py:MCConv.__call__", "pylib/pc/layers/PointConv.py:PointConv.__call__", "pylib/pc/layers/KPConv.py:KPConv.__call__", "pylib/pc/layers/Pooling.py:_LocalPointPooling.__call__", "pylib/pc/custom_ops/custom_ops_wrapper.py", "pylib/pc/Neighborhood.py:compute_neighborhoods"]}
{"id": "C109", "title": "Gradients of a layer on the GPU", "statement": "For every upstream gradient, the gradients that the backward pass of a convolution layer returns on the GPU are the derivatives of the output of the layer: along any differentiable motion of points, features and parameters the weighted sum of the outputs changes at the rate given by the returned gradients times the velocities, whatever the order in which the threads of the forward and backward kernels run.", "quantifier": "every cloud, feature, parameter, radius, bandwidth and upstream gradient, every differentiable curve through them, every launch size and every schedule of every kernel of both passes", "why_tests_cant": "gradient tests compare finite differences at a few random points for a single operation and the schedules that happen to occur; they say nothing about other curves, about pairs near the radius or about the composed layer", "anchors": ["pylib/pc/custom_ops/custom_ops_wrapper.py:_basis_proj_grad", "pylib/pc/custom_ops/custom_ops_wrapper.py:_compute_pdf_grad", "pylib/pc/layers/MCConv.py:MCConv.__call__", "pylib/pc/layers/PointConv.py:PointConv.__call__", "pylib/pc/layers/KPConv.py:KPConv.__call__"]}
{"id": "C110", "title": "Point hierarchies built on the GPU", "statement": "Building a point hierarchy on the GPU never raises an exception on a valid cloud. With Poisson disk sampling and one cell size for all dimensions, every hierarchy the GPU can produce is one of those the TensorFlow implementation can produce from the same cloud; with cell averages the levels have exactly the points and batch ids of the TensorFlow levels, up to their order.", "quantifier": "every cloud, every list of positive cell sizes, both sampling modes, every launch size and every schedule of the neighbour search and sampling kernels of every level", "why_tests_cant": "a unit test sees the schedules that happen to occur on one card, and a Poisson sample is not determined by its input, so there is no expected value to compare with", "anchors": ["pylib/pc/PointHierarchy.py:PointHierarchy.__init__", "pylib/pc/sampling.py:sample", "pylib/pc/custom_ops/custom_ops_wrapper.py:sampling", "pylib/pc/custom_ops/custom_ops_tf.py:sampling_tf"]}
{"id": "C111", "title": "The classification networks on the GPU", "statement": "A call of either ModelNet40 classification network on the GPU never raises an exception for a padded batch of non-empty shapes. With Poisson disk sampling the logits it returns are logits the TensorFlow implementation may return for the same input; with cell averages and constant features they are exactly those of the TensorFlow implementation, so the logits of a shape are the same in every run and in every batch that contains the shape.", "quantifier": "every network whose layer sizes the CUDA operations accept, every padded batch, every launch size and every schedule of every kernel of every level, training and inference for Poisson disk sampling", "why_tests_cant": "the networks run hundreds of kernels one after the other; a test sees a few schedules on one card, and with random samples has no expected logits to compare with", "anchors": ["modelnet40.py:mymodel", "modelnet40.py:conv_block", "modelnet40_small.py:mymodel", "pylib/pc/PointHierarchy.py:PointHierarchy", "pylib/pc/custom_ops/__init__.py"]}
{"id": "C112", "title": "Reading a hierarchy", "statement": "get_sizes() and get_points() of a point hierarchy return one entry per level in the order of the levels: the number of points of every batch element, and the points of every batch element padded with zeros to the largest element of this level, or to max_num_points rows if given. This holds after any history of calls on the hierarchy and on its levels, and no call changes the points of a level.", "quantifier": "every hierarchy, every history of get_points, get_sizes and set_batch_shape calls on the hierarchy or a level, returned or raised", "why_tests_cant": "every call stores something in the levels that later calls use, so the result depends on an unbounded history", "anchors": ["pylib/pc/PointHierarchy.py:PointHierarchy.get_points", "pylib/pc/PointHierarchy.py:PointHierarchy.get_sizes", "pylib/pc/PointHierarchy.py:PointHierarchy.set_batch_shape", "pylib/pc/PointHierarchy.py:PointHierarchy.__getitem__"]}
{"id": "C113", "title": "Static shapes and gradients of the custom operations", "statement": "If the inputs of a custom operation pass its checks, then every shape TensorFlow inferred for its outputs when the graph was built agrees with the shape of the tensor the operation returns, whatever part of the input shapes was known; and the gradients the registered gradient functions return have the shapes of the inputs they belong to.", "quantifier": "every input shape the operations accept, every partially known version of it (unknown rank, unknown dimensions), every number of neighbours and samples found", "why_tests_cant": "the inferred shapes depend on which dimensions are known at graph construction; a test runs eagerly or with one signature", "anchors": ["custom_ops/tfg_custom_ops/compute_keys/cc/ops/compute_keys_ops.cpp", "custom_ops/tfg_custom_ops/build_grid_ds/cc/ops/build_grid_ds_ops.cpp", "custom_ops/tfg_custom_ops/find_neighbors/cc/ops/find_neighbors_ops.cpp", "custom_ops/tfg_custom_ops/sampling/cc/ops/sampling_ops.cpp", "custom_ops/tfg_custom_ops/compute_pdf/cc/ops/compute_pdf_ops.cpp", "custom_ops/tfg_custom_ops/basis_proj/cc/ops/basis_proj_ops.cpp", "pylib/pc/custom_ops/custom_ops_wrapper.py"]}
{"id": "C114", "title": "No layer divides by zero", "statement": "Whatever the positions of the points, the features and the weights, the result of MCConv and PointConv never depends on a division by zero: the densities, their maxima and the transformed densities the layers divide by are not zero.", "quantifier": "all clouds, radii, bandwidths, weights and features, on CPU and GPU, and every way a division by zero may be evaluated", "why_tests_cant": "the divisors depend on the geometry of every neighbourhood and on trained weights; a test sees a few of them", "anchors": ["pylib/pc/layers/MCConv.py:MCConv._monte_carlo_conv", "pylib/pc/layers/PointConv.py:PointConv._point_conv", "pylib/pc/Neighborhood.py:Neighborhood.get_pdf"]}
{"id": "C115", "title": "The layout of the features between layers does not matter", "statement": "Layers can be called one after the other with the output of one as input of the next in whatever layout it was returned (one row per point, sorted, or padded): the final result is the composition of what the layers compute, row by row of the right points.", "quantifier": "every sequence of layers, every choice of return_sorted and return_padded for each, every history of calls on the point clouds before each call, sorted or unsorted batch ids", "why_tests_cant": "every layer re-interprets the layout; errors would need a particular combination of layouts, unsorted batch ids and call histories", "anchors": ["pylib/pc/utils.py:_flatten_features", "pylib/pc/layers/utils.py:_format_output", "pylib/pc/PointCloud.py:PointCloud.get_unflatten", "pylib/notebooks/Introduction.ipynb"]}
{"id": "C116", "title": "A convolution with a tiny radius acts on every point alone", "statement": "If no two points of a batch element are closer than the radius, then MCConv, PointConv and KPConv from a cloud to itself compute the same linear map of the features at every point, i.e. they are a Conv1x1 with one weight matrix, whatever the positions.", "quantifier": "every cloud with isolated points, every radius below the distances, all weights and features", "why_tests_cant": "needs neighbourhoods and densities of all clouds", "anchors": ["pylib/pc/layers/MCConv.py:MCConv", "pylib/pc/layers/PointConv.py:PointConv", "pylib/pc/layers/KPConv.py:KPConv", "pylib/pc/layers/Conv1x1.py:Conv1x1", "pylib/notebooks/Introduction.ipynb"]}
{"id": "C117", "title": "Reusing a neighbourhood does not change results", "statement": "Layers called with a precomputed neighbourhood of the clouds with the convolution radius return the same as layers that compute the neighbourhood themselves, however many layers use the same neighbourhood object before.", "quantifier": "every cloud, every sequence of MCConv and PointConv calls sharing one neighbourhood object, with or without an explicit sample cloud, all bandwidths", "why_tests_cant": "the neighbourhood object stores densities and an order of the centres, so results depend on the history of calls and on the order of the points", "anchors": ["pylib/pc/layers/MCConv.py:MCConv.__call__", "pylib/pc/layers/PointConv.py:PointConv.__call__", "pylib/pc/Neighborhood.py:Neighborhood.get_pdf", "pylib/pc/Neighborhood.py:Neighborhood.__init__", "pylib/notebooks/Introduction.ipynb"]}
{"id": "C118", "title": "Every level of a hierarchy represents the whole input", "statement": "Every point of a level has a point of each coarser level of the same batch element nearby: closer than the sum of the sampling radii between the two levels for Poisson disk sampling, and closer than the sum of the cell sizes in every coordinate for cell averages. No level leaves the input: in every coordinate a point of a level lies between two points of the same batch element of every finer level.", "quantifier": "every valid cloud, every number of levels, all radii and cell sizes, every pair of levels, every sampling outcome and every schedule on the GPU", "why_tests_cant": "errors of the levels add up; needs all numbers of levels, clouds and sampling outcomes", "anchors": ["pylib/pc/PointHierarchy.py:PointHierarchy.__init__", "pylib/pc/sampling.py:sample", "pylib/pc/custom_ops/custom_ops_tf.py:sampling_tf"]}
{"id": "C119", "title": "Turning the cloud and the filters together changes nothing", "statement": "If all points are rotated or reflected about the origin and the spatial filters of a layer are turned the same way (first layer of the kernel MLPs of MCConv, axes of PointConv, kernel points and offsets of KPConv), then the layer returns the same features.", "quantifier": "every orthogonal matrix, every dimension of at least two, all clouds, radii, bandwidths, weights and features", "why_tests_cant": "all rotations and clouds: grids and cell orders change completely under a rotation, only the distances are kept", "anchors": ["pylib/pc/layers/MCConv.py:MCConv", "pylib/pc/layers/PointConv.py:PointConv", "pylib/pc/layers/KPConv.py:KPConv", "pylib/pc/Neighborhood.py:Neighborhood.get_pdf", "pylib/pc/Grid.py:Grid"]}
{"id": "C120", "title": "The reported validation accuracy is the accuracy on the test set", "statement": "The accuracy printed after an epoch is the fraction of test models to whose label the network assigns the largest logit when it is shown the model alone, and the printed loss is the mean of the losses of these models; both are independent of the random order of the models.", "quantifier": "every network with cell average sampling, every test set, batch size and random order, every loss of a row", "why_tests_cant": "quantifies over all networks, test sets and permutations; a model that is left out leaves no trace in the logs", "anchors": ["modelnet40.py:training", "modelnet40.py:modelnet_data_generator", "modelnet40.py:mymodel.__call__"]}
{"id": "C121", "title": "The CUDA kernels have no data races", "statement": "No two threads of a launch access the same memory location without a barrier between them, unless both read or both use atomic instructions: in every kernel of the grid, neighbour search, sampling, density and projection operations.", "quantifier": "every input, number of points, centres, features and basis functions, every launch geometry, every schedule", "why_tests_cant": "a data race shows itself only under some schedules and on some devices; tests run a few schedules of one device", "anchors": ["custom_ops/tfg_custom_ops/find_neighbors/cc/kernels/scan_alg_kernels.cu.cc", "custom_ops/tfg_custom_ops/find_neighbors/cc/kernels/count_neighbors_kernels.cu.cc", "custom_ops/tfg_custom_ops/find_neighbors/cc/kernels/store_neighbors_kernels.cu.cc", "custom_ops/tfg_custom_ops/find_neighbors/cc/kernels/find_ranges_grid_ds_kernels.cu.cc", "custom_ops/tfg_custom_ops/find_neighbors/cc/kernels/elem_wise_min_kernels.cu.cc", "custom_ops/tfg_custom_ops/sampling/cc/kernels/count_sampling_pd_kernels.cu.cc", "custom_ops/tfg_custom_ops/sampling/cc/kernels/count_unique_keys_kernels.cu.cc", "custom_ops/tfg_custom_ops/sampling/cc/kernels/store_unique_keys_kernels.cu.cc", "custom_ops/tfg_custom_ops/sampling/cc/kernels/sampling_avg_kernels.cu.cc", "custom_ops/tfg_custom_ops/sampling/cc/kernels/store_sampled_pts_kernels.cu.cc", "custom_ops/tfg_custom_ops/basis_proj/cc/kernels/basis_proj_kernels.cu.cc", "custom_ops/tfg_custom_ops/basis_proj/cc/kernels/basis_proj_grads_kernels.cu.cc", "custom_ops/tfg_custom_ops/compute_pdf/cc/kernels/compute_pdf_kernels.cu.cc", "custom_ops/tfg_custom_ops/build_grid_ds/cc/kernels/build_grid_ds_kernels.cu.cc", "custom_ops/tfg_custom_ops/compute_keys/cc/kernels/compute_keys_kernels.cu.cc"]}
{"id": "C122", "title": "Results do not depend on the timing of host and GPU", "statement": "The host code of the operations only enqueues work and goes on. Whenever the GPU executes the work, the results are those of executing every kernel and copy at once: the neighbours, samples and averages returned are the same, and numbers read back by the host are final.", "quantifier": "every input, every interleaving of the host, the stream of the operation and other users of page-locked memory after the operation has returned, every launch geometry", "why_tests_cant": "the host runs ahead of the GPU by an amount that depends on load and device; tests with small inputs find the stream idle and the freed memory unused", "anchors": ["custom_ops/tfg_custom_ops/find_neighbors/cc/ops/find_neighbors_ops.cpp", "custom_ops/tfg_custom_ops/find_neighbors/cc/kernels/scan_alg_kernels.cu.cc", "custom_ops/tfg_custom_ops/sampling/cc/ops/sampling_ops.cpp", "custom_ops/tfg_custom_ops/sampling/cc/kernels/count_unique_keys_kernels.cu.cc", "custom_ops/tfg_custom_ops/sampling/cc/kernels/count_sampling_pd_kernels.cu.cc", "custom_ops/tfg_custom_ops/shared/cc/kernels/tf_gpu_device.cpp"]}
{"id": "C123", "title": "All threads of a block execute the same barriers", "statement": "In every kernel that uses block-wide barriers, all threads of a block execute the same barriers in the same order, as the CUDA programming model requires; otherwise the call may hang or read unfinished shared memory.", "quantifier": "every number of points, samples and neighbours, every number of blocks launched", "why_tests_cant": "whether the condition holds depends on divisibility of the input sizes; a device may tolerate the violation silently and another may hang", "anchors": ["custom_ops/tfg_custom_ops/find_neighbors/cc/kernels/count_neighbors_kernels.cu.cc", "custom_ops/tfg_custom_ops/find_neighbors/cc/kernels/scan_alg_kernels.cu.cc", "custom_ops/tfg_custom_ops/sampling/cc/kernels/count_unique_keys_kernels.cu.cc", "custom_ops/tfg_custom_ops/basis_proj/cc/kernels/basis_proj_kernels.cu.cc", "custom_ops/tfg_custom_ops/basis_proj/cc/kernels/basis_proj_grads_kernels.cu.cc"]}
{"id": "C124", "title": "Calls leave no resources behind", "statement": "After a call of an operation has returned, all GPU events it created are released: the number of events does not grow with the number of calls.", "quantifier": "every history of calls of the operations, every input of each call, every value read back from the GPU", "why_tests_cant": "a leak shows only after very many calls, in training runs far longer than any test", "anchors": ["custom_ops/tfg_custom_ops/find_neighbors/cc/kernels/scan_alg_kernels.cu.cc", "custom_ops/tfg_custom_ops/sampling/cc/kernels/count_unique_keys_kernels.cu.cc", "custom_ops/tfg_custom_ops/sampling/cc/kernels/count_sampling_pd_kernels.cu.cc"]}
{"id": "C125", "title": "Rounding decides only about pairs near the radius", "statement": "With coordinates, cell indices and distances computed in floating point arithmetic, the neighbour search returns every pair of a centre and a point of the same batch element that is closer than the radius by more than a small relative error, and no pair that is farther away than the radius by more than a small relative error. The error bound does not depend on the number of points.", "quantifier": "every cloud, every centre, all rounding errors allowed by the relative error of the number format, every schedule of the kernels", "why_tests_cant": "rounding errors depend on the position of every point; a pair may be lost because its two points are sorted into cells that are too far apart, although the distance test would accept it", "anchors": ["custom_ops/tfg_custom_ops/shared/cc/kernels/grid_utils.h", "custom_ops/tfg_custom_ops/shared/cc/kernels/math_helper.h", "custom_ops/tfg_custom_ops/find_neighbors/cc/kernels/count_neighbors_kernels.cu.cc", "custom_ops/tfg_custom_ops/find_neighbors/cc/kernels/store_neighbors_kernels.cu.cc"]}
{"id": "C126", "title": "Coordinates that are not finite affect only their own points", "statement": "If some points have coordinates that are infinite or not numbers, the neighbour search still ends with a complete result: such points have no neighbours and are nobody's neighbours, and all pairs of the remaining points are found as if they were alone, even though the bounding box is spoiled.", "quantifier": "every cloud with finite and other coordinates, every value the conversion of such a number to an integer may give, every box, every schedule of the kernels", "why_tests_cant": "conversion of such numbers to integers is undefined and differs between devices; the effect on other points depends on the cells all points are sorted into", "anchors": ["custom_ops/tfg_custom_ops/shared/cc/kernels/grid_utils.h", "custom_ops/tfg_custom_ops/find_neighbors/cc/kernels/count_neighbors_kernels.cu.cc", "custom_ops/tfg_custom_ops/find_neighbors/cc/kernels/store_neighbors_kernels.cu.cc", "pylib/pc/Grid.py"]}
{"id": "C127", "title": "The same call gives bit-identical results", "statement": "Calling an operation twice on the same inputs gives results that are equal bit for bit, although floating point addition is not associative and the order in which the threads run differs: the density estimation, the projection of features on basis functions, its gradients, and a layer made of the search and the projection.", "quantifier": "every input, every arithmetic (no law of addition or multiplication is assumed), all schedules of both calls, all numbers of resident blocks", "why_tests_cant": "a test sees the few schedules of one device; two runs may agree by chance for years and differ on a loaded or a different device", "anchors": ["custom_ops/tfg_custom_ops/basis_proj/cc/kernels/basis_proj_kernels.cu.cc", "custom_ops/tfg_custom_ops/basis_proj/cc/kernels/basis_proj_grads_kernels.cu.cc", "custom_ops/tfg_custom_ops/compute_pdf/cc/kernels/compute_pdf_kernels.cu.cc", "custom_ops/tfg_custom_ops/find_neighbors/cc/kernels/store_neighbors_kernels.cu.cc"]}
{"id": "C128", "title": "Rounding errors of a convolution are bounded", "statement": "The features a convolution projects on its basis functions, and their gradients, differ from the exactly computed sums by at most a factor times the sum of the absolute values of the summands; the factor grows with the number of neighbours divided by the number of thread groups for the projection, and with the number of pairs of a point for the gradients. Two calls on the same inputs agree up to twice this bound whatever the schedules.", "quantifier": "every input, every rounding with a given relative error, every schedule of search, projection and gradient kernels, every order of the atomic additions", "why_tests_cant": "rounding errors depend on all values and on the order of the additions, which differs from run to run", "anchors": ["custom_ops/tfg_custom_ops/basis_proj/cc/kernels/basis_proj_kernels.cu.cc", "custom_ops/tfg_custom_ops/basis_proj/cc/kernels/basis_proj_grads_kernels.cu.cc", "custom_ops/tfg_custom_ops/find_neighbors/cc/kernels/store_neighbors_kernels.cu.cc"]}
{"id": "C129", "title": "Logits of the tutorial network belong to the shapes", "statement": "The network of the tutorial returns one row of logits per shape of the batch, in training and at inference and for both sampling methods. At inference with cell averages the row of a shape depends only on its points and their features: not on the other shapes, the number of shapes or the order of the points. On the GPU the call raises no exception for at least one shape with at least one point.", "quantifier": "all networks of this architecture, all batches, point coordinates, features and parameters; any number of convolutions", "why_tests_cant": "quantifies over all batches a shape can be part of and all depths", "anchors": ["pylib/notebooks/ModelNet40.ipynb:mymodel", "pylib/pc/PointHierarchy.py:PointHierarchy", "pylib/pc/layers/Pooling.py:GlobalAveragePooling"]}
{"id": "C130", "title": "Data generator of the tutorial over any history of calls", "statement": "After any history of calls, accesses and reshufflings each model still has its own label and occurs exactly once; every batch consists of points of distinct models with the labels of the same models; the k-th call after a reshuffling delivers batch k and calls beyond the last full batch raise IndexError without effect. The points delivered for a model are a random subset of its points.", "quantifier": "all data sets, batch sizes, histories, permutations and random selections, all numbers of epochs", "why_tests_cant": "the arrays are shuffled in place, so a mismatch could appear after any number of reshufflings; random selections cannot be enumerated", "anchors": ["pylib/notebooks/ModelNet40.ipynb:modelnet_data_generator"]}
{"id": "C131", "title": "All models compared in the tutorial are trained with the same learning rates", "statement": "Every model trained in the tutorial sees the same sequence of learning rates, starting with the initial rate and decaying by the given factor per epoch.", "quantifier": "all initial rates, decay factors, numbers of batches, epochs and models", "why_tests_cant": "the rate is state of an object shared by several cells; no cell shows it", "anchors": ["pylib/notebooks/ModelNet40.ipynb:lr_decay", "pylib/notebooks/ModelNet40.ipynb:training"]}
{"id": "C132", "title": "A checkpoint belongs to the results reported for its epoch, wherever the process ends", "statement": "Wherever a training process ends, the lists of results hold one entry per finished epoch, computed with the variables of that epoch; a checkpoint that can be loaded holds the variables whose validation was reported under its number; every saved epoch before the last one can be loaded; after the whole run the final variables can be loaded.", "quantifier": "all networks, optimisers, data, numbers of epochs and batches, save intervals, contents of the directory at the start, and all points of the execution at which the process may end, also within the write of a checkpoint", "why_tests_cant": "a test cannot kill the process at every point of a run of any length", "anchors": ["modelnet40_small.py:training", "modelnet40_small.py:model_MC"]}
{"id": "C133", "title": "Training resumed from a checkpoint equals training without interruption", "statement": "Training continued from checkpoint e with the batches of the epochs that follow reaches the variables of the run without interruption.", "quantifier": "all networks, optimisers, data, points of interruption and numbers of further epochs", "why_tests_cant": "the difference shows only after the learning rate has decayed, tens of epochs into a run", "anchors": ["modelnet40_small.py:training", "modelnet40_small.py:optimizer", "modelnet40_small.py:lr_decay"]}
{"id": "C134", "title": "Small movements of the points change the output only a little", "statement": "If points, centres and features move continuously, the outputs of MCConv, PointConv, KPConv and of local pooling move continuously. Pooled results change by at most the largest change of a feature.", "quantifier": "all clouds, batch ids, movements over any parameter space, positions, weights, radii, bandwidths and features", "why_tests_cant": "continuity concerns arbitrarily small movements from every position; a test compares finitely many positions", "anchors": ["pylib/pc/layers/MCConv.py:MCConv", "pylib/pc/layers/PointConv.py:PointConv", "pylib/pc/layers/KPConv.py:KPConv", "pylib/pc/layers/Pooling.py:_LocalPointPooling"]}
{"id": "C135", "title": "Recording every point several times does not change the result", "statement": "If every point of the input is recorded m times with the same features, MCConv, local and global pooling give the same output. Cell averages are the same, and Poisson sampling can return the same samples even if the points are recorded differently often: they depend only on the places that are occupied. So the levels of a point hierarchy after the first are the same, and the network of the tutorial with MCConv as its first convolution has the same possible logits.", "quantifier": "all clouds, batch ids, repetitions in any order, numbers of repetitions, weights, radii, bandwidths, features and devices", "why_tests_cant": "a test repeats the points of some clouds a few times; the statement is for every cloud, order and number", "anchors": ["pylib/pc/layers/MCConv.py:MCConv", "pylib/pc/layers/PointConv.py:PointConv", "pylib/pc/layers/KPConv.py:KPConv", "pylib/pc/layers/Pooling.py:_LocalPointPooling", "pylib/pc/sampling.py:sample", "pylib/pc/PointHierarchy.py:PointHierarchy", "pylib/notebooks/ModelNet40.ipynb:mymodel"]}
{"id": "C136", "title": "The output at a centre depends only on points close to it", "statement": "Two inputs that agree around a centre give the same output there: within one radius for KPConv and local pooling, within two radii for MCConv and PointConv (features within one), and within twice the sum of the radii for a sequence of Monte Carlo convolutions. For MCConv one radius is not enough.", "quantifier": "all pairs of clouds, batch elements, centres, weights, radii, numbers of layers, activations and devices", "why_tests_cant": "the points far away are arbitrary, in number and place; a test tries a few of them", "anchors": ["pylib/pc/layers/MCConv.py:MCConv", "pylib/pc/layers/PointConv.py:PointConv", "pylib/pc/layers/KPConv.py:KPConv", "pylib/pc/layers/Pooling.py:_LocalPointPooling"]}
{"id": "C137", "title": "A library is accepted if its version meets the requested one", "statement": "The configuration accepts a version exactly if all elements of the requested version are present in it; the comparison with CUDA 10.1 decides by the number in the header.", "quantifier": "all versions of digits and dots, and all numbers in the header", "why_tests_cant": "there are infinitely many versions, later ones are unknown when the test is written", "anchors": ["custom_ops/gpu/find_cuda_config.py:_matches_version", "custom_ops/gpu/find_cuda_config.py:_at_least_version"]}
{"id": "C138", "title": "The search returns the first installed library with the requested version", "statement": "If a header of the requested version lies in one of the directories, the configuration finds one, the first in the order of the directories, and reports its version; otherwise it fails.", "quantifier": "all directories, contents of the headers, and requested versions", "why_tests_cant": "the outcome depends on the directories and files of the machine", "anchors": ["custom_ops/gpu/find_cuda_config.py:_find_versioned_file", "custom_ops/gpu/find_cuda_config.py:_get_header_version", "custom_ops/gpu/find_cuda_config.py:_find_cuda_config", "custom_ops/gpu/find_cuda_config.py:_find_cudnn_config", "custom_ops/gpu/find_cuda_config.py:_find_tensorrt_config"]}
{"id": "C139", "title": "An old variable naming the directory of libraries leads to the directory above", "statement": "If an old variable is set to root/lib/x86_64-linux-gnu, the search goes to root; any other value is a list of directories separated by commas.", "quantifier": "all values of the variable", "why_tests_cant": "the variable is an arbitrary string", "anchors": ["custom_ops/gpu/find_cuda_config.py:_get_legacy_path"]}
{"id": "C140", "title": "The network of the tutorial gives the same logits on the GPU", "statement": "The network of the tutorial computed with the CUDA operations returns the logits that the network computed with TensorFlow functions may return: the same ones on given levels and with cell averages, one of the possible ones with Poisson disk sampling. A run on the GPU always returns.", "quantifier": "all networks of this architecture with any number of convolutions of the three kinds, all batches, features, parameters and schedules of the threads", "why_tests_cant": "quantifies over all schedules of all kernels and all depths of the network", "anchors": ["pylib/notebooks/ModelNet40.ipynb:mymodel", "pylib/pc/custom_ops/custom_ops_wrapper.py:find_neighbors", "pylib/pc/PointHierarchy.py:PointHierarchy"]}
{"id": "C141", "title": "Diameters of the bounding boxes after any calls", "statement": "get_AABB().get_diameter() of a point cloud can be called at any time; it returns for every batch element the diameter of the box of the points of this element, in the batch shape the cloud has at the time of the call. The same holds for the levels of a hierarchy.", "quantifier": "all clouds, all norms, all histories of calls on the cloud, all batch shapes, all hierarchies", "why_tests_cant": "the result depends on the order of all earlier calls; a test sees one history", "anchors": ["pylib/pc/PointCloud.py:_AABB.get_diameter", "pylib/pc/PointCloud.py:PointCloud.get_AABB", "pylib/pc/PointCloud.py:PointCloud.set_batch_shape", "pylib/pc/PointHierarchy.py:PointHierarchy.set_batch_shape"]}
{"id": "C142", "title": "Random numbers of the threads of the limited neighbour search", "statement": "In one launch of the search with a neighbour limit different threads are never in the same state after the same number of draws. A thread runs through all non-zero 32 bit numbers before it repeats one, so its draws do not cycle early. Launches in different seconds use different streams.", "quantifier": "all launch times, all pairs of threads, all numbers of draws", "why_tests_cant": "the period is 2^32 - 1 draws for each of 2^32 seeds; a test sees a few draws of one launch", "anchors": ["custom_ops/tfg_custom_ops/shared/cc/kernels/rnd_utils.h:wang_hash", "custom_ops/tfg_custom_ops/shared/cc/kernels/rnd_utils.h:rand_xorshift", "custom_ops/tfg_custom_ops/find_neighbors/cc/kernels/store_neighbors_kernels.cu.cc:store_neighbors_limited_gpu_kernel"]}
{"id": "C143", "title": "Sampling a sample again", "statement": "A cloud that has been subsampled is not thinned out further by sampling it again with the same or smaller sizes: all points of a sample are kept, so repeating a level of a hierarchy is harmless.", "quantifier": "all clouds, radii, scan orders and schedules, all pairs of radii of which the second is not larger", "why_tests_cant": "a statement about two runs for every cloud; tests sample once", "anchors": ["pylib/pc/sampling.py:sample", "pylib/pc/sampling.py:poisson_disk_sampling", "pylib/pc/sampling.py:cell_average_sampling", "pylib/pc/custom_ops/custom_ops_tf.py:sampling_tf", "custom_ops/tfg_custom_ops/sampling/cc/kernels/count_sampling_pd_kernels.cu.cc"]}
{"id": "C144", "title": "Sizes are bounded by the extent, not by the number of input points", "statement": "A Poisson sample has at most (m D)^D points of one batch element in a box of m radii, a cell average at most (m + 1)^D in a box of m cells, however many points the input has. So the neighbourhoods of a sampled level and the list of pairs of a search on it are bounded by a number that depends on the ratio of the radii and the dimension only.", "quantifier": "all clouds of any size, all boxes, all radii, all centres", "why_tests_cant": "a bound uniform in the number of points", "anchors": ["pylib/pc/sampling.py:poisson_disk_sampling", "pylib/pc/sampling.py:cell_average_sampling", "pylib/pc/Neighborhood.py:Neighborhood", "pylib/pc/custom_ops/custom_ops_tf.py:find_neighbors_tf"]}
{"id": "C145", "title": "The neighbour list is as long as the list of pairs that is stored", "statement": "The CUDA search allocates its list of pairs for the pairs it then stores: every pair is written inside the list and into the slots of its own centre, no slot is left without a pair and none is written for two centres.", "quantifier": "all ranges, all outcomes of the distance test in the counting and in the storing kernel, all numbers of blocks and all schedules", "why_tests_cant": "the two kernels evaluate the test separately; whether they differ depends on the compiler and on points within a rounding error of the radius", "anchors": ["custom_ops/tfg_custom_ops/find_neighbors/cc/kernels/count_neighbors_kernels.cu.cc:count_neighbors_gpu_kernel", "custom_ops/tfg_custom_ops/find_neighbors/cc/kernels/store_neighbors_kernels.cu.cc:store_neighbors_gpu_kernel", "custom_ops/tfg_custom_ops/find_neighbors/cc/ops/find_neighbors_ops.cpp:FindNeighborsOp"]}
{"id": "C146", "title": "The emulated atomic maximum of floats", "statement": "Threads that combine values into one memory word with the atomic maximum of the kernel utilities do so atomically: after all threads have returned, the word is what some order of the threads would have given one after another, so it is the largest of the numbers; no thread tries forever, and each returns as documented.", "quantifier": "all numbers of threads, all values (also not-a-number and both zeros), all interleavings of the compare-and-swap attempts", "why_tests_cant": "races between threads; a test sees one schedule", "anchors": ["custom_ops/tfg_custom_ops/shared/cc/kernels/cuda_kernel_utils.h:atomicMax"]}
{"id": "C147", "title": "Activation functions and their derivatives", "statement": "The backward method of each activation function of the kernel headers returns the derivative of its forward method, given the value the forward pass produced.", "quantifier": "all real arguments, all activation functions of the header", "why_tests_cant": "a derivative at every argument; tests sample finitely many and use tolerances", "anchors": ["custom_ops/tfg_custom_ops/shared/cc/kernels/nn_utils.h"]}
{"id": "C148", "title": "Searches with different radii fit together", "statement": "Enlarging the radius never loses a pair: the search with the smaller radius finds exactly those pairs of the larger search that lie below the smaller radius, though it uses another grid. Going from a centre to a neighbour and from there to one of its neighbours reaches only points that one search with the sum of the radii finds. Max pooling over a larger radius never gives a smaller value.", "quantifier": "all clouds, centres, pairs of radii, both devices", "why_tests_cant": "relates two or three runs with different grids for every input", "anchors": ["pylib/pc/Neighborhood.py:Neighborhood", "pylib/pc/Grid.py:Grid", "pylib/pc/layers/Pooling.py:MaxPooling", "pylib/pc/layers/Pooling.py:AveragePooling"]}
{"id": "C149", "title": "Deformable kernel point convolutions", "statement": "A deformable layer extends the rigid one: with zero offset weights both compute the same, and both return zero for zero features and are linear in the convolution weights. Its output can be differentiated with respect to everything that is trained, so that training with gradients makes sense.", "quantifier": "all clouds, layers, weights, offset weights and features, all differentiable curves in them", "why_tests_cant": "equality for all inputs and existence of derivatives at every point", "anchors": ["pylib/pc/layers/KPConv.py:KPConv", "pylib/pc/layers/KPConv.py:_linear_weighting", "pylib/pc/layers/KPConv.py:_gaussian_weighting"]}
{"id": "C150", "title": "The GPU search examines few points", "statement": "For one centre, wherever it lies, the neighbour search on the GPU computes the distance to each point at most once, and only to points of the centre's batch element inside a box of three cell sizes per dimension; for a centre inside the extent of the cloud these are closer than two cell sizes per dimension. On a Poisson-sampled cloud the number of distances per centre is therefore bounded by a constant that does not depend on the number of points.", "quantifier": "all clouds in two and three dimensions, all centres, cell sizes, tables built under any schedule", "why_tests_cant": "a bound on the work for every cloud; tests only compare results, which stay correct when far too many points are examined", "anchors": ["custom_ops/tfg_custom_ops/find_neighbors/cc/kernels/find_ranges_grid_ds_kernels.cu.cc", "custom_ops/tfg_custom_ops/find_neighbors/cc/kernels/count_neighbors_kernels.cu.cc", "custom_ops/tfg_custom_ops/find_neighbors/cc/ops/find_neighbors_ops.cpp"]}
{"id": "C151", "title": "Counting neighbour pairs in 32 bits", "statement": "The GPU neighbour search counts neighbours, and addresses the rows it writes, with 32 bit integers. As long as a search has fewer than 2^31 pairs its result is exactly that of unbounded integers; the number of rows of the result is always the number of pairs modulo 2^32.", "quantifier": "all numbers of centres for which the thread numbers fit, all search ranges and distance tests, launch geometries and schedules", "why_tests_cant": "the limit lies at two thousand million pairs; no test allocates that", "anchors": ["custom_ops/tfg_custom_ops/find_neighbors/cc/ops/find_neighbors_ops.cpp", "custom_ops/tfg_custom_ops/find_neighbors/cc/kernels/store_neighbors_kernels.cu.cc", "custom_ops/tfg_custom_ops/find_neighbors/cc/kernels/scan_alg_kernels.cu.cc"]}
{"id": "C152", "title": "A layer restored from a checkpoint computes the same", "statement": "The numbers stored by save_weights determine what a layer computes: read into a layer constructed again with the same arguments, whatever its random initial values, they give a layer with the same results on every point cloud.", "quantifier": "all layer sizes, numbers, initial values, clouds, features and devices", "why_tests_cant": "two constructions differ in their random numbers; a test that restores into the same object cannot see what was not stored", "anchors": ["pylib/pc/layers/MCConv.py", "pylib/pc/layers/PointConv.py", "pylib/pc/layers/KPConv.py", "pylib/pc/layers/utils.py", "modelnet40_small.py"]}
{"id": "C153", "title": "Number of parameters of the layers", "statement": "The number of trainable parameters of a layer depends on its arguments only, not on the data, by a closed formula: MCConv m(D h + h) + h C_in C_out for m kernels with one hidden layer of size h (in general the sum over the hidden layers), PointConv (D+1) h + h C_in C_out + 49, KPConv k C_in C_out (deformable: plus k C_in k D), Conv1x1 C_in C_out + C_out. The introduction notebook prints these numbers.", "quantifier": "all hyperparameters", "why_tests_cant": "a formula over all hyperparameters", "anchors": ["pylib/pc/layers/MCConv.py", "pylib/pc/layers/PointConv.py", "pylib/pc/layers/KPConv.py", "pylib/pc/layers/Conv1x1.py", "pylib/notebooks/Introduction.ipynb"]}
{"id": "C154", "title": "Gradients of the kernel point convolution are the derivatives", "statement": "Automatic differentiation of a KPConv layer and of its regularization loss returns numbers, and these are the partial derivatives: with respect to the offset weights and the features (deformable layers) and the points (rigid layers).", "quantifier": "all layer sizes, kernel points, weights, clouds, features, radii and linear losses of the outputs; all devices", "why_tests_cant": "the gradient checks draw output points that differ from all input points; a gradient that is not a number appears only where a distance is exactly zero (or in the regularization loss, always)", "anchors": ["pylib/pc/layers/KPConv.py", "pylib/pc/layers/utils.py", "pylib/pc/layers/tests/kernel_point_conv_test.py"]}
{"id": "C155", "title": "Rounding errors of the densities", "statement": "On the GPU, in single precision with gradual underflow, the computed density of a point is the exact one up to a relative error of one thousandth (usually much less) and is positive, so that layers can divide by it; the error does not grow with the number of neighbours, the size or position of the cloud, or the radius.", "quantifier": "all clouds of up to six dimensions, all radii between 2^-100 and 2^100, constant bandwidths between 1/8 and 8, up to 2^20 neighbours, all schedules and launch sizes; general accuracies in C155_density", "why_tests_cant": "the test compares the densities with those of a reference within a fixed tolerance, for clouds of one size in the unit cube; cancellation, underflow and accumulated errors appear for other sizes, positions and scales", "anchors": ["custom_ops/tfg_custom_ops/compute_pdf/cc/kernels/compute_pdf_kernels.cu.cc", "pylib/pc/custom_ops/custom_ops_wrapper.py"]}
{"id": "C156", "title": "Gradients of the Monte Carlo convolution with respect to all its parameters", "statement": "The gradients that automatic differentiation returns for a Monte Carlo convolution (weights and biases of every layer of every kernel MLP, final weights, features, input points and output points) are the partial derivatives of the loss: along every motion of all of them the derivative of the loss is the sum of gradients times velocities.", "quantifier": "all clouds, layer sizes, numbers of MLPs and of their layers, activation functions, upstream gradients, motions, and all schedules of the GPU operations", "why_tests_cant": "a numerical check of gradients compares a few values at random positions; which parts of the parameters receive which sums, and what happens exactly at kinks, concerns every configuration", "anchors": ["pylib/pc/layers/MCConv.py:_monte_carlo_conv", "pylib/pc/layers/MCConv.py:__init__", "pylib/pc/layers/MCConv.py:non_linearity_types"]}
{"id": "C157", "title": "Gradients of the pooling layers", "statement": "The gradients that automatic differentiation returns for the features of maximum and average pooling, global and local, are the derivatives of the loss; at ties of the maximum they are subgradients; and in every channel they add up to the upstream gradients of the outputs that are not empty.", "quantifier": "all clouds, batch sizes, radii, features, upstream gradients and motions of the features, on CPU and GPU", "why_tests_cant": "a test compares a few values at random features, where ties have probability zero; in practice features behind a ReLU tie at zero all the time, and neighbourhoods overlap in every possible way", "anchors": ["pylib/pc/layers/Pooling.py:GlobalMaxPooling", "pylib/pc/layers/Pooling.py:GlobalAveragePooling", "pylib/pc/layers/Pooling.py:_LocalPointPooling", "pylib/pc/layers/Pooling.py:MaxPooling", "pylib/pc/layers/Pooling.py:AveragePooling"]}
{"id": "C158", "title": "Gradients of PointConv with respect to all its parameters and the points", "statement": "The gradients that automatic differentiation returns for PointConv (kernel network, density network, final weights, features, input points including their influence on the densities, and output points) are the partial derivatives of the loss: along every motion of all of them the derivative of the loss is the sum of gradients times velocities. The gradients of the densities of a neighbourhood are orthogonal to the densities, since only ratios of densities matter.", "quantifier": "all clouds, layer sizes, activation functions, upstream gradients, motions, and all schedules of the GPU operations", "why_tests_cant": "a numerical check of gradients compares a few values at random positions; the density enters twice, directly and as the maximum of its neighbourhood, and every point takes part in many neighbourhoods, so that which sums belong to which parameter concerns every configuration", "anchors": ["pylib/pc/layers/PointConv.py:_point_conv", "pylib/pc/layers/PointConv.py:__call__", "pylib/pc/layers/PointConv.py:non_linearity_types"]}
{"id": "C159", "title": "Gradients of the training loss through the classification head", "statement": "The gradients that automatic differentiation returns for the training loss of the two example networks with respect to the logits, to all trainable parameters of the classification head (matrices, biases, scales and offsets of the batch normalisations) and to the features of the last convolution are the derivatives of the loss: along every motion of all of them the derivative of the loss is the sum of gradients times velocities. Every wrongly classified model of the batch gets a gradient.", "quantifier": "all batch sizes, numbers of classes, labels, parameters, dropout masks and motions; both orders of activation and dropout", "why_tests_cant": "a test compares a few values with finite differences; batch normalisation couples all models of a batch, so every gradient depends on the whole batch, and the clipping of the probabilities only acts for logits that a randomly initialised network does not produce", "anchors": ["modelnet40.py:loss_function", "modelnet40.py:training", "modelnet40_small.py:loss_function", "modelnet40_small.py:mymodel"]}
{"id": "C160", "title": "Gradients of the whole small classification network", "statement": "A training step of the small example network returns the gradients of the training loss: along every motion of all trainable variables of the network (kernel networks and weights of all convolutions, matrices, biases, scales and offsets of the batch normalisations, both dense layers of the head) the derivative of the loss at the current values is the sum of gradients times velocities, whatever the schedules of the GPU in the forward pass, in the backward pass and in all other evaluations of the loss.", "quantifier": "all hierarchies of clouds, features, labels, numbers of levels and of channels, convolution types (Monte Carlo, PointConv, rigid KPConv), dropout masks, warp counts, thread schedules and motions", "why_tests_cant": "a test differentiates a network numerically for a few inputs in one schedule; a wrong gradient of one of the many parameters still decreases the loss, so training does not reveal it", "anchors": ["modelnet40_small.py:mymodel", "modelnet40_small.py:training", "pylib/pc/layers/MCConv.py:MCConv", "pylib/pc/layers/PointConv.py:PointConv", "pylib/pc/layers/KPConv.py:KPConv"]}
{"id": "C161", "title": "Gradients of the whole residual classification network", "statement": "A training step of the residual example network returns the gradients of the training loss: along every motion of all trainable variables (first convolution, all residual blocks with their skip connections, maximum pooling between levels, global average pooling, head) the derivative of the loss at the current values is the sum of gradients times velocities, whatever the schedules of the GPU; in particular the gradients of both branches of a block are added up.", "quantifier": "all hierarchies of clouds, features, labels, numbers of levels and of channels, convolution types (Monte Carlo, PointConv, rigid KPConv), dropout masks, warp counts, thread schedules and motions", "why_tests_cant": "a test differentiates a network numerically for a few inputs in one schedule; a missing contribution of a skip connection still decreases the loss, so training does not reveal it", "anchors": ["modelnet40.py:mymodel", "modelnet40.py:conv_block", "modelnet40.py:training", "pylib/pc/layers/Pooling.py:MaxPooling", "pylib/pc/layers/Pooling.py:GlobalAveragePooling"]}
{"id": "C162", "title": "Updates of the variables by the optimisers", "statement": "After a training step at which not all gradients are zero, every small enough learning rate lowers the loss of both example networks on the same batch, whatever the optimiser has accumulated before and whatever the schedules of the GPU. No update moves a number of a variable by more than the learning rate divided by the square root of one minus the decay, and with the learning rate schedule of the scripts no number ever leaves a fixed interval around its first value, however long the training and whatever the data; a number without gradient keeps its value, so the biases in front of a batch normalisation are never trained.", "quantifier": "all networks, inputs, gradients, histories of the accumulators, numbers of updates, schedules of the GPU; for the decrease of the loss all small enough learning rates", "why_tests_cant": "a test observes the loss of a few training steps; a wrong sign or a wrong accumulator of one of many variables is compensated by the others, and bounds over trainings of any length cannot be run", "anchors": ["modelnet40.py:training", "modelnet40_small.py:training", "pylib/notebooks/ModelNet40.ipynb:training"]}
{"id": "C163", "title": "The small network restored from a checkpoint", "statement": "Saving the weights of the small example network and loading them into a network constructed again with the same arguments gives a network with the same logits and the same exceptions in every call, whatever the initial values of the new network; this includes the moving moments of the batch normalisations. A call of a constructed network uses every layer exactly once, in the order of construction, with numbers of features that fit.", "quantifier": "all layer types, feature sizes, numbers of layers, radii, values of all variables, inputs, results of the sampling, devices", "why_tests_cant": "a test saves and loads one network and compares some outputs; it does not cover every number of layers, by which the positions in the lists are computed, nor all values", "anchors": ["modelnet40_small.py:mymodel", "modelnet40_small.py:training", "pylib/pc/layers/MCConv.py:MCConv", "pylib/pc/layers/PointConv.py:PointConv", "pylib/pc/layers/KPConv.py:KPConv", "pylib/pc/layers/Conv1x1.py:Conv1x1"]}
{"id": "C164", "title": "Every shape of a batch may be moved on its own", "statement": "If each shape of a batch is moved by a vector of its own, neighbour lists, densities, outputs of all convolutions and pooling layers, cell averages (moved along), Poisson samples (moved along), hierarchies and the logits of both classification networks have the same possible results, exceptions included, in training and at inference, on both devices and whatever fills the padding. At inference with constant input features and cell averages a shape gets the same logits wherever it lies, in whatever order its points come and whatever else is in the batch.", "quantifier": "all clouds, radii, layers, networks, movements (one vector per shape), batch sizes, padding, random choices of the sampling", "why_tests_cant": "a test moves one cloud as a whole; movements of single shapes change cell numbers, order of the cells and bounding boxes of every element differently", "anchors": ["pylib/pc/Grid.py:Grid", "pylib/pc/Neighborhood.py:Neighborhood", "pylib/pc/PointHierarchy.py:PointHierarchy", "pylib/pc/sampling.py:sample", "modelnet40.py:mymodel", "modelnet40_small.py:mymodel"]}
{"id": "C165", "title": "The order of the shapes of a batch does not matter, in training either", "statement": "If the shapes of a batch are put in another order, the points of every shape in another order and the padding is changed, and the dropout treats every shape as before, each shape gets the same logits in its new place, in training (normalisation by the statistics of the batch) and at inference; the training loss is the same for labels in the new order, and the gradient of the loss for the logits goes to the new places.", "quantifier": "all networks, batches, orders of the shapes and their points, padding, dropout masks that move along, labels; for the small network all input features", "why_tests_cant": "a test trains on one order; sums over the batch, sorting by batch ids and cells and the pooling mix the rows of all shapes, and the number of orders is factorial", "anchors": ["modelnet40.py:mymodel", "modelnet40_small.py:mymodel", "modelnet40.py:training", "pylib/pc/Grid.py:Grid", "pylib/pc/PointHierarchy.py:PointHierarchy"]}
{"id": "C166", "title": "Gradients do not depend on the order and the places of the shapes of a batch", "statement": "Two training steps of a classification network with the same variables, one with the shapes of the batch in another order, their points in another order, every shape moved by a vector of its own and the labels and the dropout going with the shapes, have the same loss and the same gradients for all variables, so the optimiser makes the same update.", "quantifier": "all networks, variables, batches, orders of the shapes and their points, movements, labels, dropout masks that move along; at points where the loss is differentiable in the sense of C160 and C161", "why_tests_cant": "a test compares one reordering for one network within a tolerance; the gradients are sums over pairs, cells and rows of all shapes, which are enumerated in an order that depends on the place of every shape", "anchors": ["modelnet40.py:training", "modelnet40.py:mymodel", "modelnet40_small.py:mymodel", "pylib/pc/layers/MCConv.py:MCConv", "pylib/pc/Grid.py:Grid"]}
{"id": "C167", "title": "Residual networks keep the shapes of a batch apart", "statement": "If one shape of a batch is moved, the rows that PointResNet and PointResNetSpatialBottleNeck return for the other shapes do not change, nor do those of the moved shape; a shape gets the same rows in every batch that contains it, wherever it lies, with normalisations that do not mix shapes.", "quantifier": "all clouds, layers, numbers of blocks, movements (one vector per shape), other shapes of the batch, orders of the points, devices", "why_tests_cant": "a test with one shape or a fixed batch cannot see that rows of one shape are computed with coordinates of another one", "anchors": ["pylib/pc/layers/network_blocks.py:PointResNet", "pylib/pc/layers/network_blocks.py:PointResNetSpatialBottleNeck", "pylib/pc/Neighborhood.py:Neighborhood", "pylib/pc/Grid.py:Grid"]}
{"id": "C168", "title": "Gradients of the network of the tutorial", "statement": "A training step of the notebook returns the gradients of the training loss: along every motion of all trainable variables (convolutions, normalisations, dense layers) the derivative of the loss at the current values is the sum of gradients times velocities, whatever the schedules of the GPU. Every run of the network that returns can be such a step.", "quantifier": "all hierarchies of clouds, features, labels, numbers of convolutions and of channels, convolution types (Monte Carlo, PointConv, rigid KPConv; the notebook trains one model of each), warp counts, thread schedules and motions", "why_tests_cant": "a test differentiates a network numerically for a few inputs in one schedule; a gradient that misses a contribution still decreases the loss", "anchors": ["pylib/notebooks/ModelNet40.ipynb:mymodel", "pylib/notebooks/ModelNet40.ipynb:tf.GradientTape", "pylib/pc/layers/Pooling.py:GlobalAveragePooling"]}
{"id": "C169", "title": "Poisson samples of a cloud have comparable sizes", "statement": "How many points Poisson disk sampling keeps is determined up to a constant: of two samples of the same cloud with the same radius, whichever starting points, schedules or implementation (TensorFlow functions, GPU operation) produced them, each has in every batch element at most 3^D times as many points as the other, in D dimensions. With radii that differ by a factor the constant is (2R+1)^D, and levels of two point hierarchies of one cloud are comparable in the same way. The sizes need not be equal.", "quantifier": "all clouds, batch elements, dimensions, radii, starting points, schedules, hierarchies", "why_tests_cant": "a test counts the samples of a few runs; how far two runs can differ is a statement about all pairs of runs", "anchors": ["pylib/pc/sampling.py:sample", "pylib/pc/custom_ops/custom_ops_tf.py:sampling_tf", "pylib/pc/tests/sample_test.py:test_sampling_poisson_disk_on_uniform", "pylib/pc/PointHierarchy.py:PointHierarchy"]}
{"id": "C170", "title": "The unit of length does not matter", "statement": "If all coordinates, sampling radii and convolution radii are multiplied by one positive factor (meters to centimeters), nothing else changes: Poisson sampling can return exactly the same points in the new unit, point hierarchies have the same levels, and the networks of the tutorial and of the ModelNet40 scripts have the same possible logits with the same weights, in training and in evaluation. PointConv needs the first layer of its kernel network divided by the factor, and for cell averages the border added to bounding boxes has to be given in the new unit; in the code it is a constant, so that the number of samples can change with the unit.", "quantifier": "all clouds and batches, positive factors, radii, weights, networks with any number of levels, starting points and schedules of Poisson sampling, borders of the bounding boxes", "why_tests_cant": "a test compares two units on a few clouds; absolute constants hidden in the code show only for particular distances", "anchors": ["pylib/notebooks/ModelNet40.ipynb:mymodel", "modelnet40.py:mymodel", "modelnet40_small.py:mymodel", "pylib/pc/sampling.py:sample", "pylib/pc/PointHierarchy.py:PointHierarchy", "pylib/pc/layers/PointConv.py:PointConv", "pylib/pc/Grid.py:Grid"]}
{"id": "C171", "title": "Turning the shapes and the filters of a network changes nothing", "statement": "If all points of all shapes of a batch are turned or reflected by one orthogonal map, and the filters of all layers are turned along (the first layer of the kernel networks of MCConv and PointConv, the kernel points and offsets of KPConv), nothing changes: Poisson sampling can return exactly the turned samples, point hierarchies can have exactly the turned levels, and the networks of the tutorial and of the ModelNet40 scripts have the same possible logits, in training and in evaluation. This fails for cell averages, as the cells of the grid do not turn with the points: even the number of samples can change.", "quantifier": "all clouds and batches, orthogonal maps, radii, weights, networks with any number of levels, starting points and schedules of Poisson sampling", "why_tests_cant": "a test turns a few clouds by a few angles; the result has to be compared for all choices of the random sampling, and the grid is not symmetric, so that a dependence on the axes would show only for particular positions", "anchors": ["pylib/notebooks/ModelNet40.ipynb:mymodel", "modelnet40.py:mymodel", "modelnet40_small.py:mymodel", "pylib/pc/sampling.py:sample", "pylib/pc/PointHierarchy.py:PointHierarchy", "pylib/pc/layers/MCConv.py:MCConv", "pylib/pc/layers/PointConv.py:PointConv", "pylib/pc/layers/KPConv.py:KPConv", "pylib/pc/Grid.py:Grid"]}
{"id": "C172", "title": "The residual network sees only which places a shape occupies", "statement": "With Poisson sampling and equal features at all points, as modelnet40.py passes them, the possible logits of the network of modelnet40.py depend only on the set of places occupied by the points of each shape: how often, in which order and with which padding the points are recorded does not matter, whatever convolutions are used, in training and in evaluation. This fails for cell averages.", "quantifier": "all batches of shapes occupying the same places, all radii, weights, convolutions, and all choices and schedules of Poisson sampling", "why_tests_cant": "a test compares a few recordings of a few shapes; the logits are random, so that sets of possible results have to be compared", "anchors": ["modelnet40.py:mymodel", "pylib/pc/sampling.py:sample", "pylib/pc/PointHierarchy.py:PointHierarchy"]}
{"id": "C173", "title": "Selected points are copied once, with their own batch ids and indices, in every schedule", "statement": "The GPU kernels that copy the selected points to the output (store_pooled_pts and store_sampled_pts) reserve a position with an atomic addition and then write coordinates, batch id and index one after the other, while other threads go on. Whatever the schedule, at the end every selected point appears exactly once, its three entries stand at the same position, the positions are 0, 1, ..., number of selected points - 1, and nothing else is written; no entry is written twice, no two threads are at the same position, no thread writes beyond the number of selected points, and no schedule runs forever.", "quantifier": "all numbers of points and threads, selections, point data, and all interleavings of the single steps of the threads", "why_tests_cant": "a test sees the few schedules that the device happens to choose; a mixed up entry would need an unlucky interleaving", "anchors": ["custom_ops/tfg_custom_ops/find_neighbors/cc/kernels/store_pooled_pts_kernels.cu.cc:store_pooled_pts_gpu_kernel", "custom_ops/tfg_custom_ops/sampling/cc/kernels/store_sampled_pts_kernels.cu.cc:store_sampled_pts_gpu_kernel"]}
{"id": "C174", "title": "The random logits of the shapes of a batch are independent of each other", "statement": "At inference with Poisson sampling the logits are random. For the networks of modelnet40.py (equal features at all points, as in the script) and of the tutorial (any features), the possible logits of a batch are exactly the combinations of rows that are possible for its shapes, each processed alone: neither the other shapes, nor their number, nor the choices made for them restrict what can be computed for a shape, or add anything to it.", "quantifier": "all batches of non-empty shapes, all radii, weights, convolutions and features, and all choices of Poisson sampling on all levels", "why_tests_cant": "a test sees single random results; that two sets of possible results are equal, and that all combinations occur, cannot be observed", "anchors": ["modelnet40.py:mymodel", "pylib/notebooks/ModelNet40.ipynb:mymodel", "pylib/pc/sampling.py:sample", "pylib/pc/PointHierarchy.py:PointHierarchy"]}
{"id": "C175", "title": "With one shape per batch nothing is learned from the shape", "statement": "In training with a batch of one shape the logits are those of the last dense layer applied to the offsets of the second batch normalisation of the head: they depend neither on the points and features of the shape, nor on convolutions, samples or schedule. The gradients of the other variables of the head and of the features handed to the head are zero, and so are the gradients of all convolutions, blocks and normalisations before the head.", "quantifier": "all shapes, features, weights, convolutions, radii, samples, and all schedules of the kernels", "why_tests_cant": "a test can only compare some shapes and weights; that the result is the same for all of them, and that all gradients vanish exactly in every schedule, cannot be tested", "anchors": ["modelnet40.py:mymodel", "modelnet40_small.py:mymodel", "pylib/notebooks/ModelNet40.ipynb:mymodel"]}
