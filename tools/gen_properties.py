#!/usr/bin/env python3
"""Writes ../properties.jsonl.  Appending only: ids are never reused."""
import json, os
P = []
def p(id, title, statement, quantifier, why, anchors):
    P.append(dict(id=id, title=title, statement=statement, quantifier=quantifier,
                  why_tests_cant=why, anchors=anchors))

PCF = "pylib/pc/PointCloud.py"; OPS = "pylib/pc/custom_ops/custom_ops_tf.py"
GR = "pylib/pc/Grid.py"; NB = "pylib/pc/Neighborhood.py"; SA = "pylib/pc/sampling.py"
PH = "pylib/pc/PointHierarchy.py"; UT = "pylib/pc/utils.py"; LU = "pylib/pc/layers/utils.py"
CU = "custom_ops/tfg_custom_ops/"

p("C01", "Padded constructor round trip",
  "Building a PointCloud from a padded tensor [A1..An,V,D] with sizes and calling get_points() returns a tensor of the same shape whose first sizes[b] rows of every batch element are the given rows, in order, and whose remaining rows are zero, whatever garbage the padding held.",
  "every batch shape, every V, every sizes tensor with entries <= V, every tensor content",
  "Ranges over all shapes, all size vectors (including zeros) and all padding contents.",
  [PCF+":PointCloud.__init__", PCF+":_init_from_padded", PCF+":get_points", PCF+":get_unflatten"])
p("C02", "get_points(id) returns exactly one batch element",
  "get_points(id) returns precisely the input points whose batch id is id, each exactly once and in input order; over all ids below the batch size the results partition the input points.",
  "every segmented point cloud (any order of batch ids) and every id",
  "Unordered, interleaved and missing batch ids are unboundedly many; a test fixes one interleaving.",
  [PCF+":get_points"])
p("C03", "Batch index errors",
  "get_points(id) raises IndexError exactly when id is not a valid batch index, i.e. outside [0, batch_size).",
  "every point cloud and every integer id",
  "A test only samples ids; the boundary id = batch_size and negative ids must be covered for every batch size.",
  [PCF+":get_points"])
p("C04", "get_sizes reports the number of points per batch element",
  "get_sizes() has one entry per batch element and entry b is the number of points with batch id b.",
  "every point cloud, any order of ids, any batch size, including batch elements without points",
  "Depends on every possible multiset and order of batch ids and on empty elements.",
  [PCF+":get_sizes"])
p("C05", "Sizes add up to the number of points",
  "The entries of get_sizes() are positive for clouds given by batch ids and always add up to the total number of points N.",
  "every point cloud given by batch ids",
  "Sum law over arbitrarily many batch elements and points.",
  [PCF+":get_sizes"])
p("C06", "Padded view agrees with the per-element view",
  "get_points() without id on a cloud given by batch ids returns in row b the points get_points(b), in the same order, followed by zeros up to max(sizes) rows.",
  "every point cloud given by (unsorted) batch ids",
  "Involves stable sorting of arbitrary interleavings; any finite test fixes few interleavings.",
  [PCF+":get_points", PCF+":get_unflatten", PCF+":_sorted_indices_batch"])
p("C07", "max_num_points is honoured regardless of earlier calls",
  "get_points(max_num_points=m) with m >= max(sizes) returns V = m rows per batch element, whatever methods have been called on the cloud before.",
  "every history of earlier get_points/get_unflatten/get_sizes calls and every m",
  "Quantifies over call histories; memoisation bugs only show after particular earlier calls.",
  [PCF+":get_unflatten", PCF+":get_points"])
p("C08", "set_batch_shape changes only the arrangement",
  "set_batch_shape(s) succeeds exactly when prod(s) equals the batch size; it never changes the points, ids or their per-element grouping; a rejected shape leaves the cloud unchanged; afterwards get_points((i1..in)) returns the element with row-major index of (i1..in).",
  "every point cloud, every shape, every multi index, every sequence of set_batch_shape calls",
  "Quantifies over all shapes of any rank and call sequences.",
  [PCF+":set_batch_shape", PCF+":get_points"])
p("C09", "Constructor input validation",
  "The constructor rejects 1-D input, 2-D input without sizes and batch_ids, and 2-D input whose number of batch ids differs from the number of points, and accepts every other combination of ranks; for accepted 2-D input with batch ids and no batch size, every id is below the resulting batch size.",
  "every combination of rank, presence of sizes/batch_ids and lengths",
  "Decision logic over all ranks and lengths.",
  [UT+":check_valid_point_cloud_input", PCF+":_init_from_segmented"])
p("C10", "Feature flatten / padded output round trip",
  "Layer features handed over padded and layer outputs returned padded use the same correspondence: flattening the padded output of a layer gives back the per-point features in the order of the cloud's points, for any order of batch ids; return_sorted lists them stably sorted by batch id.",
  "every point cloud with no empty batch element, every feature tensor",
  "Permutation correctness for all interleavings of batch ids.",
  [UT+":_flatten_features", LU+":_format_output"])
p("C11", "Bounding boxes contain their points and are tight",
  "For every batch element with at least one point, every point lies strictly inside its bounding box, and every face of the box is within 1e-9 of some point of that element.",
  "every point cloud and batch element",
  "All coordinates and all batch assignments.",
  [PCF+":_AABB.__init__"])
p("C12", "Diameter dominates all distances",
  "AABB.get_diameter() (euclidean, 1-norm, infinity norm) of a batch element is at least the corresponding distance between any two of its points.",
  "every point cloud, every pair of points of one batch element, each supported norm",
  "Universal inequality over real coordinates.",
  [PCF+":_AABB.get_diameter"])
p("C13", "Grid cells identify batch element and cell",
  "Two points get the same grid key exactly when they belong to the same batch element and fall into the same cell of the regular grid; all keys lie in [0, batch_size * number of cells).",
  "every point cloud, every dimension, all positive cell sizes",
  "Mixed radix injectivity and boundary handling over all coordinates and dimensions.",
  [OPS+":compute_keys_tf", GR+":Grid.__init__"])
p("C14", "Grid order is a sorted permutation",
  "The sorted points of a grid are a permutation of the cloud's points that carries along batch ids and keys; keys are non-increasing, so points of one cell, of one 2D cell and of one batch element are contiguous.",
  "every point cloud and cell sizes",
  "Sorting correctness for arbitrary inputs, including ties.",
  [GR+":Grid.__init__"])
p("C15", "The 2D access structure is exact",
  "Entry [b,i,j] of Grid.get_DS() is a half-open range that contains sorted index k if and only if the k-th sorted point belongs to batch element b and its cell has first coordinates (i,j); empty cells give empty ranges.",
  "every point cloud, dimension > 1, cell sizes, every (b,i,j) and k",
  "Exactness for all cells including empty and boundary ones.",
  [OPS+":build_grid_ds_tf", GR+":get_DS"])
p("C16", "Neighbour search is sound",
  "Every reported neighbour pair (p,c) satisfies: p and c belong to the same batch element and their distance is below the radius; no pair is reported twice.",
  "every grid, every centre cloud, every radius (also different from the cell size), any dimension > 1",
  "All geometric configurations and grids.",
  [OPS+":find_neighbors_tf"])
p("C17", "Neighbour search is complete",
  "If the grid was built with cell size equal to the search radius, every point of the same batch element at distance below the radius of a centre is reported for that centre, also for centres outside the bounding box.",
  "every point cloud, every centre cloud, every positive radius, dimension > 1",
  "A missing neighbour depends on delicate cell boundary positions; only a proof covers all of them.",
  [OPS+":find_neighbors_tf", OPS+":compute_keys_tf", OPS+":build_grid_ds_tf"])
p("C18", "Completeness for radius smaller than the cell size",
  "The documentation of compute_neighborhoods asks for a radius smaller than the grid's cell size; for every such radius the search reports all points closer than the radius.",
  "every point cloud and every radius below the cell size",
  "Boundary cells of all grids.",
  [NB+":compute_neighborhoods", OPS+":find_neighbors_tf"])
p("C19", "Neighbour ranges partition the pair list",
  "The returned ranges are non-decreasing, end with the number of pairs, and for each centre i the pairs between range i-1 (0 for i=0) and range i are exactly the pairs whose centre is i.",
  "every neighbour search result",
  "Prefix-sum law for any number of centres, including centres without neighbours.",
  [OPS+":find_neighbors_tf"])
p("C20", "Reported neighbour indices refer to the input cloud",
  "The original neighbour ids of a Neighborhood index the input cloud: the point with that id in the input cloud is the point the search found in grid order, so the distance and batch conditions hold for the input cloud's points.",
  "every grid and centre cloud",
  "Permutation composition for every sort order.",
  [NB+":Neighborhood.__init__", NB+":compute_neighborhoods"])
p("C21", "Brute-force search agrees with the definition",
  "find_neighbors_no_grid returns exactly the pairs (p,c) of the same batch element with distance <= radius, ordered by centre, then by point, with no duplicates.",
  "every pair of clouds and every radius",
  "All configurations.",
  [OPS+":find_neighbors_no_grid"])
p("C22", "Brute-force ranges delimit each centre's neighbours",
  "The ranges returned by find_neighbors_no_grid delimit, for every centre, exactly its neighbours, as documented.",
  "every pair of clouds, including centres without neighbours",
  "Centres without neighbours at arbitrary positions.",
  [OPS+":find_neighbors_no_grid"])
p("C23", "Transposition swaps the roles of the clouds",
  "A transposed neighbourhood contains the pair (c,p) exactly when the neighbourhood contains (p,c), for both the recomputed and the index-based transposition, and transposing the neighbourhood of a cloud with itself changes nothing; the neighbour relation of a cloud with itself is symmetric.",
  "every neighbourhood",
  "All relations between arbitrary clouds.",
  [NB+":Neighborhood.transpose", NB+":_NeighborhoodTransposed"])
p("C24", "Poisson disk sampling terminates",
  "With a positive radius, Poisson disk sampling stops after at most N selections, whatever random choices are made.",
  "every point cloud, every positive radius, every sequence of random choices",
  "Quantifies over all random schedules.",
  [OPS+":sampling_tf", SA+":sample"])
p("C25", "Poisson samples are separated",
  "Any two distinct selected points of one batch element are at distance at least the radius, no point is selected twice, for every sequence of random choices.",
  "every point cloud, radius and random choice sequence",
  "Quantifies over all random schedules.",
  [OPS+":sampling_tf", SA+":sample"])
p("C26", "Poisson samples cover the cloud",
  "When Poisson disk sampling stops, every input point is within the radius of a selected point of its own batch element; in particular every non-empty batch element keeps at least one point.",
  "every point cloud, positive radius and random choice sequence",
  "Quantifies over all random schedules.",
  [OPS+":sampling_tf", SA+":sample"])
p("C27", "Sample indices identify input points",
  "sample(neighborhood,'poisson') returns a cloud whose k-th point and batch id equal those of the input cloud at the k-th returned index, with the same batch size as the input.",
  "every point cloud and random choice sequence",
  "All sort orders and schedules.",
  [SA+":sample", SA+":poisson_disk_sampling"])
p("C28", "The sampling helpers do what their names say",
  "poisson_disk_sampling returns a Poisson disk sample and cell_average_sampling returns the cell averages; both accept a scalar radius / cell size.",
  "every point cloud and argument combination",
  "Dispatch must be right for every argument combination.",
  [SA+":poisson_disk_sampling", SA+":cell_average_sampling", SA+":sample_modes"])
p("C29", "Cell average sampling: one sample per occupied cell",
  "Cell average sampling returns exactly one sample for each grid cell that holds a point, equal to the mean of the cell's points and carrying their batch id.",
  "every point cloud and cell sizes",
  "All occupancy patterns.",
  [OPS+":sampling_tf", SA+":sample"])
p("C30", "Cell average sampling conserves mass and stays inside",
  "The count-weighted sum of the cell averages of a batch element equals the sum of its points, the counts add up to its number of points, each sample lies in the cell's box (hence in the bounding box), and every non-empty batch element keeps at least one sample.",
  "every point cloud and cell sizes",
  "Conservation law for all inputs.",
  [OPS+":sampling_tf"])
p("C31", "Point hierarchies are well formed",
  "A hierarchy built from k cell sizes has k+1 levels; every level has the same batch size and dimension; the number of points per batch element never increases from level to level and stays positive for non-empty elements; with Poisson sampling every level is a subset of the previous level.",
  "every point cloud, every list of cell sizes, every sequence of random choices",
  "Induction over arbitrarily many levels and schedules.",
  [PH+":PointHierarchy.__init__", PH+":__len__", PH+":__getitem__"])
p("C32", "Cell sizes with too few entries are completed with their last value",
  "When a cell size with fewer than D entries is given to PointHierarchy, the missing entries are filled with its last value; more than D entries are rejected.",
  "every dimension D and every list of cell sizes",
  "All lengths and values.",
  [PH+":PointHierarchy.__init__"])
p("C33", "Densities are positive",
  "The density of every point of a cloud w.r.t. a neighbourhood of the cloud with itself is at least the value of its own kernel contribution, hence strictly positive, so dividing by it is safe.",
  "every cloud, positive radius and bandwidth",
  "Universal lower bound.",
  [OPS+":compute_pdf_tf", NB+":Neighborhood.compute_pdf"])
p("C34", "Densities depend only on relative positions",
  "Densities are unchanged when all points are translated by one vector, or when radius and coordinates are scaled by the same positive factor, and do not depend on the order in which neighbours are listed.",
  "every cloud, translation, scale and neighbour order",
  "Invariance over a continuous group.",
  [OPS+":compute_pdf_tf"])
p("C35", "Density queries honour their arguments",
  "get_pdf(**kwargs) returns the density for the passed arguments whatever was called before on the neighbourhood.",
  "every call history",
  "Memoisation over call histories.",
  [NB+":Neighborhood.get_pdf", NB+":Neighborhood.compute_pdf"])
p("C36", "Normalised densities",
  "With normalize=True each density is divided by the size of the neighbourhood it belongs to, so with KDEMode.no_pdf the values of every non-empty neighbourhood add up to 1.",
  "every neighbourhood",
  "All neighbourhood sizes.",
  [NB+":Neighborhood.compute_pdf", NB+":density_estimation_in_neighborhoods"])
p("C37", "Free-standing density estimation works",
  "density_estimation(point_cloud, ...) returns one density per point of the input cloud, in input order, for every KDEMode.",
  "every cloud and mode",
  "All modes and clouds.",
  [NB+":density_estimation"])
p("C38", "Basis projection is the neighbourhood sum",
  "basis_proj returns for centre c, feature channel f and basis k the sum over the neighbours p of c of feature[p,f]*basis[(p,c),k], and zero for centres without neighbours; it is linear in features and in basis values and independent of the order of the neighbour list.",
  "every neighbourhood, all features and basis values",
  "Algebraic laws for all inputs.",
  [OPS+":basis_proj_tf"])
p("C39", "KPConv zero padding has no effect",
  "Padding the kernel weights to 8, 16, 32 or 64 columns before the projection and slicing afterwards gives the same result as no padding, for every number of kernel points, and the padded count is one the custom op accepts whenever there are at most 64 kernel points.",
  "every number of kernel points, weights, features, neighbourhood",
  "All kernel sizes.",
  ["pylib/pc/layers/KPConv.py:_kp_conv"])
p("C40", "KPConv kernel weights",
  "Linear kernel weights lie in [0,1], are 1 exactly at the kernel point and 0 exactly from distance sigma on; Gaussian weights lie in (0,1] and are 1 exactly at distance 0; both decrease with distance; the default influence distance is conv_radius/2.5.",
  "every distance and positive sigma",
  "Real inequalities.",
  ["pylib/pc/layers/KPConv.py:_linear_weighting", "pylib/pc/layers/KPConv.py:_gaussian_weighting", "pylib/pc/layers/KPConv.py:__call__"])
p("C41", "Convolution layers are translation invariant and linear in the features",
  "MCConv, PointConv and KPConv outputs do not change when input and output cloud are translated by the same vector, and are linear in the input features for fixed weights (rigid KPConv).",
  "all clouds, weights, features, translations",
  "Continuous symmetry.",
  ["pylib/pc/layers/MCConv.py:_monte_carlo_conv", "pylib/pc/layers/PointConv.py:_point_conv", "pylib/pc/layers/KPConv.py:_kp_conv"])
p("C42", "MCConv splits output channels over its MLPs",
  "MCConv is constructible exactly when num_mlps divides num_features_out, and then output channel o is computed by MLP o / (num_features_out/num_mlps) from the basis block of that MLP only.",
  "all channel and MLP counts",
  "Index arithmetic of nested reshapes/transposes for all sizes.",
  ["pylib/pc/layers/MCConv.py:__init__", "pylib/pc/layers/MCConv.py:_monte_carlo_conv"])
p("C43", "Max pooling",
  "Max pooling (local and global) returns for each output point / batch element an upper bound of the pooled features that is attained by one of them, whenever the neighbourhood / batch element is non-empty; it commutes with monotone maps and does not depend on point order.",
  "all clouds, features",
  "Order-theoretic laws for all inputs.",
  ["pylib/pc/layers/Pooling.py:GlobalMaxPooling", "pylib/pc/layers/Pooling.py:MaxPooling"])
p("C44", "Average pooling",
  "Average pooling returns the mean of the pooled features (between their minimum and maximum, exact on constant features, linear), and 0 for empty neighbourhoods.",
  "all clouds, features",
  "All inputs.",
  ["pylib/pc/layers/Pooling.py:GlobalAveragePooling", "pylib/pc/layers/Pooling.py:AveragePooling"])
p("C45", "Pooling accepts the documented radius arguments",
  "Local pooling accepts a float radius as documented.",
  "every point cloud and radius",
  "API contract.",
  ["pylib/pc/layers/Pooling.py:_LocalPointPooling.__call__"])
p("C46", "Conv1x1 acts point-wise",
  "Conv1x1 output at a point is an affine function of that point's features only, equal for all points, commuting with any reordering of the points.",
  "all features, weights",
  "All inputs.",
  ["pylib/pc/layers/Conv1x1.py:__call__"])
p("C47", "Random rotations are isometries",
  "random_rotation preserves all distances and norms for every choice of random angles, and is orientation preserving.",
  "all angles and points",
  "Continuous parameters.",
  [LU+":random_rotation"])
p("C48", "Spherical kernel points are distinct points of the unit ball",
  "spherical_kernel_points(n) returns n pairwise different points inside the closed unit ball for each supported n, for every random rotation, and raises ValueError for every other n.",
  "every n and every rotation",
  "All rotations; irrational coordinates.",
  [LU+":spherical_kernel_points", LU+":_hexagon", LU+":_pentagon"])
p("C49", "Text loader returns the numbers in the file",
  "load_points_from_file_to_tensor returns one row per line whose first D1 fields are the point and the remaining fields the feature, for every text file with or without final newline.",
  "every file content, delimiter, dimension",
  "All file contents, final newline or not, any field width.",
  ["pylib/io/points.py:load_points_from_file_to_tensor"])
p("C50", "Line limit of the numpy loader",
  "load_points_from_file_to_numpy reads all lines without max_num_points and the first m lines with max_num_points=m.",
  "every file, every m",
  "All files and limits.",
  ["pylib/io/points.py:load_points_from_file_to_numpy"])
p("C51", "Batch loader pads to a common size",
  "load_batch_of_points returns for every file its rows followed by zero rows up to the largest file, sizes equal to the row counts, arranged in row-major batch shape; a batch shape whose product is not the number of files is rejected.",
  "all file lists, shapes",
  "All file counts and shapes.",
  ["pylib/io/points.py:load_batch_of_points"])
p("C52", "Residual blocks align features with points",
  "In PointResNet without a given neighbourhood, each convolution output row belongs to the point with the same row in the input cloud, so the skip connection adds features of the same point.",
  "every point cloud",
  "Depends on the sort order of every cloud.",
  ["pylib/pc/layers/network_blocks.py:PointResNet.__call__"])
p("C53", "Keys decode to batch and cell (CUDA)",
  "For every key computed by the CUDA grid code, decoding yields the batch id and cell it was computed from, encoding equals the documented formula, and the 2D cell index from key and from cell agree.",
  "all dimensions, cell counts, cells and batch ids",
  "Mixed radix arithmetic for any sizes.",
  [CU+"shared/cc/kernels/grid_utils.h"])
p("C54", "Parallel construction of the 2D access structure",
  "The CUDA kernel that builds the 2D access structure yields for every thread schedule and launch geometry the same table, equal to the table of the pure TensorFlow version for all non-empty cells, with no two threads writing the same entry.",
  "every sorted key array, every interleaving of threads, every number of blocks and threads",
  "All schedules.",
  [CU+"build_grid_ds/cc/kernels/build_grid_ds_kernels.cu.cc"])
p("C55", "Binary search ranges of the CUDA neighbour search",
  "For every centre and cell offset the kernel's two binary searches return exactly the sorted points of the 2D tube whose key lies within one of the shifted centre key, and stop after finitely many steps.",
  "all sorted key arrays, tubes and keys",
  "All arrays; off-by-one and non-termination.",
  [CU+"find_neighbors/cc/kernels/find_ranges_grid_ds_kernels.cu.cc"])
p("C56", "CUDA neighbour search is sound, complete and duplicate free",
  "With radii not larger than the cell sizes, the CUDA search reports every point with scaled distance below 1 of the same batch element exactly once and nothing else.",
  "every cloud, dimension 2..6, radii <= cell sizes",
  "All geometric configurations and dimensions.",
  [CU+"find_neighbors/cc/ops/find_neighbors_ops.cpp", CU+"find_neighbors/cc/kernels/find_ranges_grid_ds_kernels.cu.cc", CU+"find_neighbors/cc/kernels/count_neighbors_kernels.cu.cc", CU+"find_neighbors/cc/kernels/store_neighbors_kernels.cu.cc"])
p("C57", "Parallel scan computes exclusive prefix sums",
  "The work-efficient block scan used to place neighbours returns, for arrays of any length, the exclusive prefix sums of its input and the total.",
  "all arrays of any length",
  "All lengths, multi-level block structure.",
  [CU+"find_neighbors/cc/kernels/scan_alg_kernels.cu.cc"])
p("C58", "Storing neighbours under every schedule",
  "Without a neighbour limit, for every interleaving of the atomic increments each centre's slot range holds exactly its neighbours, every slot is written exactly once, and the final ranges are the cumulative counts.",
  "every interleaving of threads",
  "All schedules.",
  [CU+"find_neighbors/cc/kernels/store_neighbors_kernels.cu.cc"])
p("C59", "Neighbour limit respects slot ownership",
  "With a neighbour limit m every centre gets min(m, count) distinct neighbours, and no thread writes into the slots of another centre, under every interleaving.",
  "every interleaving of threads, every limit",
  "All schedules; rare races.",
  [CU+"find_neighbors/cc/kernels/store_neighbors_kernels.cu.cc"])
p("C60", "Parallel Poisson sampling",
  "The CUDA Poisson disk sampling selects, for every schedule of the threads inside its parity phases, a set of points that is separated and covers the cloud; cells processed in one phase never contain neighbouring points of different cells.",
  "every cloud, dimension, schedule",
  "All schedules.",
  [CU+"sampling/cc/kernels/count_sampling_pd_kernels.cu.cc"])
p("C61", "CUDA cell averages",
  "The CUDA cell average sampling emits one sample per distinct key for every schedule, the mean of the points with that key and the batch id encoded in it; as a set of samples the result does not depend on the schedule.",
  "every cloud and schedule",
  "All schedules.",
  [CU+"sampling/cc/kernels/count_unique_keys_kernels.cu.cc", CU+"sampling/cc/kernels/store_unique_keys_kernels.cu.cc", CU+"sampling/cc/kernels/sampling_avg_kernels.cu.cc"])
p("C62", "Projection gradients are exact",
  "The gradients returned by the custom projection op are the exact partial derivatives of the projection w.r.t. basis values and features (adjoint of the forward map), for all inputs, and the chunked kernels compute the plain sums.",
  "all neighbourhoods, features, basis values, upstream gradients",
  "Algebraic identity for all inputs.",
  [CU+"basis_proj/cc/kernels/basis_proj_grads_kernels.cu.cc", CU+"basis_proj/cc/kernels/basis_proj_kernels.cu.cc", "pylib/pc/custom_ops/custom_ops_wrapper.py:_basis_proj_grad"])
p("C63", "Density gradients are exact",
  "The gradient op of the density estimation returns the derivative of the density w.r.t. the point coordinates.",
  "all clouds, bandwidths, radii",
  "Real calculus identity for all inputs.",
  [CU+"compute_pdf/cc/kernels/compute_pdf_kernels.cu.cc", "pylib/pc/custom_ops/custom_ops_wrapper.py:_compute_pdf_grad"])
p("C64", "Compensated summation adds up",
  "The compensated (Kahan) accumulation used in the kernels returns in exact arithmetic the plain sum, with zero final compensation.",
  "all lists of summands",
  "All lengths.",
  [CU+"compute_pdf/cc/kernels/compute_pdf_kernels.cu.cc", CU+"basis_proj/cc/kernels/basis_proj_kernels.cu.cc"])
p("C65", "Scalar arguments are broadcast to all dimensions",
  "A scalar or one-element radius / cell size / bandwidth is used for each of the D dimensions, a D-vector is used as is.",
  "all D and values",
  "All D.",
  [UT+":cast_to_num_dims", GR+":Grid.__init__", NB+":Neighborhood.__init__"])

p("C66", "set_batch_shape shows in all views",
  "After a successful set_batch_shape(s) the padded tensor of get_points() and the sizes have batch shape s.",
  "every point cloud (padded or segmented construction), every call history, every shape",
  "Quantifies over construction modes, histories and shapes.",
  [PCF+":set_batch_shape", PCF+":get_points", PCF+":_init_from_padded"])
p("C67", "sizes given with 2-D points are consistent with the points",
  "A cloud constructed from 2-D points and sizes has one batch id per point, sizes[b] consecutive points belonging to element b; sizes that do not add up to the number of points are rejected.",
  "every list of points and sizes",
  "All size vectors.",
  [PCF+":_init_from_segmented", UT+":check_valid_point_cloud_input"])
p("C68", "A hierarchy's neighbourhoods connect consecutive levels",
  "get_neighborhood(i) returns the neighbourhood between level i and level i+1, for every i in [-num_levels, num_levels-1].",
  "every hierarchy and index",
  "All clouds, cell sizes, random choices and indices.",
  [PH+":get_neighborhood", PH+":PointHierarchy.__init__"])
p("C69", "Transposed neighbourhoods of a hierarchy",
  "get_neighborhood(i, transposed=True) returns the transposed neighbourhood, and without index the list of all transposed neighbourhoods.",
  "every hierarchy and index",
  "All hierarchies.",
  [PH+":get_neighborhood"])
p("C70", "set_batch_shape of a hierarchy acts on all levels or on none",
  "PointHierarchy.set_batch_shape(s) sets the batch shape of every level if the entries of s multiply to the batch size, otherwise it raises and changes no level; points and batch ids never change.",
  "every hierarchy, every history of calls on its levels, every shape",
  "All hierarchies and histories.",
  [PH+":set_batch_shape", PCF+":set_batch_shape"])
p("C71", "get_points(id) of a hierarchy",
  "PointHierarchy.get_points(id) returns one tensor per level holding exactly the points of batch element id of this level in order; their number never increases from level to level and is positive on all levels if it is on the first.",
  "every hierarchy and valid id, every sequence of random choices",
  "Induction over levels and schedules.",
  [PH+":get_points"])
p("C72", "Densities inside neighbourhoods",
  "The density inside neighbourhoods returns one value per neighbour pair (p, c): the sum over all neighbours q of c of the product over dimensions of the kernel at (p - q)/(bandwidth * radius), divided by the product of the bandwidths.",
  "every cloud, neighbour list with consistent ranges, bandwidth and radius",
  "Index juggling with repeats, masks and offsets must be right for all neighbourhood sizes, including empty ones.",
  [OPS+":compute_pdf_inside_neighborhoods_tf"])
MC = "pylib/pc/layers/MCConv.py"; PT = "pylib/pc/layers/PointConv.py"; KP = "pylib/pc/layers/KPConv.py"
PO = "pylib/pc/layers/Pooling.py"; NW = "pylib/pc/layers/network_blocks.py"
p("C73", "Convolution layers do not depend on the order of the points",
  "Reordering the points of the input cloud together with their features leaves the output of MCConv, PointConv and KPConv unchanged; reordering the points of the output cloud permutes the output rows accordingly.",
  "all clouds, weights, features, permutations",
  "All permutations of all clouds; grid sorting, neighbour lists and segment sums all depend on the order.",
  [MC+":__call__", PT+":__call__", KP+":__call__"])
p("C74", "Convolution layers are invariant under joint scaling",
  "Scaling input and output cloud and the radius (for KPConv also a given influence distance) by the same positive factor does not change the output of MCConv, KPConv and PointConv.",
  "all clouds, weights, features, factors",
  "Continuous symmetry.",
  [MC+":__call__", PT+":__call__", KP+":__call__"])
p("C75", "KPConv works with any number of custom kernel points",
  "KPConv with custom_kernel_points of shape [K,D] returns one row per output point, to which each of the K kernel points contributes.",
  "every K and num_kernel_points, all clouds and features",
  "Shapes of padding, slicing and reshape interact for all counts.",
  [KP+":__init__", KP+":_kp_conv"])
p("C76", "Regularization loss of deformable KPConv",
  "regularization_loss() of a deformable layer is the sum over output points and kernel points of the smallest squared normalised distance to a neighbour plus the kernel weights of all pairs of different displaced kernel points; it is non-negative and bounded by the geometry for every pair of clouds.",
  "all clouds, weights, features",
  "Holds or fails depending on empty neighbourhoods of arbitrary clouds.",
  [KP+":regularization_loss", KP+":_kernel_offsets"])

p("C77", "Padded result of global pooling",
  "Global max and average pooling with return_padded=True return a tensor whose leading dimensions are the batch shape of the cloud and whose entry at a multi index is the pooled feature of this batch element.",
  "every cloud, padded or given by batch ids, and all features",
  "All batch shapes and ways to construct clouds.",
  [PO+":GlobalMaxPooling.__call__", PO+":GlobalAveragePooling.__call__"])
p("C78", "Cube kernel points form the regular lattice",
  "cube_kernel_points(m) returns the m^3 points of the regular lattice in the unit cube, each exactly once, corners included for m >= 2.",
  "every m", "All sizes.", [LU+":cube_kernel_points"])
p("C79", "Residual networks work with every documented layer type",
  "PointResNet can be constructed and called with layer_type 'MCConv', 'KPConv' and 'PointConv', and the bottleneck variants can be constructed for every number of blocks.",
  "every layer type, number of blocks, further keyword arguments, cloud and features",
  "All combinations of options.",
  [NW+":PointResNet.__call__", NW+":PointResNetBottleNeck.__init__", KP+":__call__"])

p("C80", "Mesh batch loader pads to a common size",
  "load_batch_of_meshes returns for every mesh its vertices followed by zero rows up to the largest mesh and the vertex counts as sizes, in the requested batch shape, where one entry may be -1; if it returns, the shapes have one entry per mesh.",
  "all lists of meshes and batch shapes", "All mesh counts, sizes and shapes.",
  ["pylib/io/points.py:load_batch_of_meshes"])

p("C81", "CUDA and TensorFlow compute the same keys",
  "The CUDA key kernel and the TensorFlow implementation assign every point of every cloud the same cell key, and the kernel writes exactly this array for every thread schedule.",
  "every cloud, dimension, cell size, number of threads and interleaving",
  "All clouds and schedules; the two implementations clamp differently.",
  [CU+"compute_keys/cc/kernels/compute_keys_kernels.cu.cc", CU+"shared/cc/kernels/grid_utils.h", "pylib/pc/custom_ops/custom_ops_tf.py:compute_keys_tf"])

p("C82", "Replacement over the neighbour limit is random over all slots",
  "When a centre has more neighbours than the limit m, a later neighbour is kept with probability m/count and then replaces a uniformly chosen one of the m stored neighbours; in particular every stored neighbour can be replaced for some seed.",
  "every limit, count and seed",
  "The draws depend on 2^32 seeds per step; a test sees a few of them.",
  ["custom_ops/tfg_custom_ops/find_neighbors/cc/kernels/store_neighbors_kernels.cu.cc:store_neighbors_limited_gpu_kernel", "custom_ops/tfg_custom_ops/shared/cc/kernels/rnd_utils.h:seed_to_float"])

p("C83", "Poisson sampling from grid to samples on the GPU",
  "Building the grid, searching the neighbours of the sorted points and Poisson disk sampling on the GPU together return, whatever the schedules of the kernels, points of the cloud that are separated by the radii within each batch element and cover every point of the cloud.",
  "every cloud, radii up to the cell sizes, launch configuration and schedule of every kernel",
  "The composition of six kernels, each of them with arbitrarily many schedules.",
  ["custom_ops/tfg_custom_ops/sampling/cc/ops/sampling_ops.cpp", "custom_ops/tfg_custom_ops/find_neighbors/cc/ops/find_neighbors_ops.cpp", "pylib/pc/sampling.py:sample"])

p("C84", "CUDA and TensorFlow densities agree",
  "For the same neighbourhood, bandwidth and mode the CUDA density operation and the TensorFlow implementation return the same densities (up to the rounding of the constant in the kernel).",
  "every cloud, neighbourhood, bandwidth, radii, mode, launch configuration and schedule",
  "Tests compare two implementations on a few random clouds in one mode.",
  ["custom_ops/tfg_custom_ops/compute_pdf/cc/kernels/compute_pdf_kernels.cu.cc:compute_pdf_gpu_kernel", "pylib/pc/custom_ops/custom_ops_tf.py:compute_pdf_tf", "pylib/pc/custom_ops/custom_ops_wrapper.py:compute_pdf"])
p("C85", "The density of a point does not depend on the rest of the batch",
  "The density returned for a point depends only on the coordinates of the point and of its neighbours, so adding further batch elements does not change the densities of the others.",
  "every pair of clouds, neighbourhoods and modes",
  "Relates pairs of runs on arbitrary different batches.",
  ["custom_ops/tfg_custom_ops/compute_pdf/cc/kernels/compute_pdf_kernels.cu.cc:compute_pdf_gpu_kernel", "pylib/pc/Neighborhood.py:compute_pdf"])

p("C86", "Projection kernels: uniform barriers, memory bounds",
  "In the CUDA projection and its gradient all threads of a block pass the barriers of the neighbour loop equally often (no divergence), for every number of neighbours including zero; for every accepted number of basis functions and features all accesses to shared memory stay inside the allocated size, and with valid indices all global writes stay inside the output tensors.",
  "all accepted sizes, neighbourhoods, schedules, launches",
  "Barrier divergence and out-of-bounds accesses depend on the number of neighbours of each centre and on the sizes; they are undefined behaviour that tests may not notice.",
  [CU+"basis_proj/cc/kernels/basis_proj_kernels.cu.cc", CU+"basis_proj/cc/kernels/basis_proj_grads_kernels.cu.cc"])

p("C87", "Spatial bottleneck networks keep features and points aligned",
  "A network of spatial bottleneck blocks returns on row i the features of point i: the downsampling, inner and upsampling convolutions of every block aggregate the features of the neighbours of the same point whose row they compute; reusing the downsampling neighbourhood for the upsampling step gives what a fresh computation gives.",
  "all clouds, downsampled clouds, radii, layer types, weights, numbers of blocks and devices",
  "A misalignment only permutes rows; shapes and finite values are unaffected, so shape tests pass.",
  ["pylib/pc/layers/network_blocks.py:PointResNetSpatialBottleNeck", "pylib/pc/Neighborhood.py:transpose"])
p("C88", "Data set listing assigns the right class to every model",
  "For every category file and listing the script produces one entry per line in order, whose label is the number of the line's category (always a valid class number) and whose path is that model's file; labels of training and test set agree exactly for equal categories; an unknown category raises ValueError.",
  "all lists of category names and all listings (final line break optional in the category file)",
  "Tests would check particular listings; a parsing slip would silently mislabel models.",
  ["modelnet40.py", "modelnet40_small.py"])
p("C89", "Cached data equal the data of the settings",
  "Whatever runs of the training script came before, including interrupted ones, a run that is not interrupted trains on the points its own settings ask for.",
  "all histories of runs with arbitrary settings and all crash points",
  "Depends on the whole history of earlier runs and on crash points.",
  ["modelnet40.py", "modelnet40_small.py"])
p("C90", "One pass over the data generator",
  "One pass delivers floor(N/B) batches of B rows; no model occurs twice; each row holds the points of its model, scaled per coordinate by factors between 0.9 and 1.1 if augmentation is on, together with that model's label; the stored data are never modified.",
  "all data sets, batch sizes, permutations and random numbers",
  "Quantifies over all permutations and random draws.",
  ["modelnet40.py:modelnet_data_generator", "modelnet40_small.py:modelnet_data_generator"])
p("C91", "Every epoch of training uses every model in a new order",
  "In every epoch each model of the training set is fed to the network exactly once, and the order is drawn anew for every epoch.",
  "all data sets, batch sizes, permutations, numbers of epochs",
  "Needs all numbers of epochs and permutations; an omitted model leaves no trace in the logs.",
  ["modelnet40.py:modelnet_data_generator", "modelnet40.py:training"])
p("C92", "Successive calls of the data generator",
  "After on_epoch_end the k-th call returns batch k of the new order, whatever calls were made before and whatever batches are indexed explicitly in between; after the last batch every call raises IndexError and leaves the generator unchanged.",
  "all histories of method calls",
  "A property of all histories of a stateful object.",
  ["modelnet40.py:modelnet_data_generator.__call__", "modelnet40.py:modelnet_data_generator.on_epoch_end"])
p("C93", "Learning rate schedule",
  "The learning rate is constant within an epoch, equals init * rate^(floor(epoch/20)), and is positive and never increases.",
  "all numbers of batches per epoch, epochs and steps",
  "All steps of arbitrarily long trainings.",
  ["modelnet40.py:lr_decay"])

p("C94", "Batch elements do not influence each other",
  "The rows that a convolution, a local or global pooling layer or a 1x1 convolution computes for one batch element, and the points that cell average sampling and every level of a hierarchy of cell averages keep for it, are determined by the points and features of this element alone: they are the same in any two calls sharing this element, whatever the other elements, their number, the order of the points and the device; in particular a batch gives what processing its elements one by one gives. Poisson samples are random: the possible samples and levels of hierarchies of an element are the same in any two calls sharing it, and the choices for different elements are independent, so that every possible result for one can occur together with every possible result for the others.",
  "all pairs of clouds sharing an element, all features, weights, radii, cell sizes, numbers of levels and devices, all choices of Poisson sampling",
  "Leakage between elements shows only for particular combinations of elements; tests compare single batches with stored values.",
  ["pylib/pc/layers/MCConv.py:MCConv.__call__", "pylib/pc/layers/PointConv.py:PointConv.__call__", "pylib/pc/layers/KPConv.py:KPConv.__call__", "pylib/pc/layers/Pooling.py", "pylib/pc/layers/Conv1x1.py", "pylib/pc/sampling.py:cell_average_sampling", "pylib/pc/PointHierarchy.py"])

p("C95", "Pooling along a hierarchy never meets an empty neighbourhood",
  "When features are pooled from one level of a point hierarchy to the next with the radius that was used to build that level, every point of the coarser level has at least one neighbour in the finer level, so max pooling never returns the lowest float and average pooling never averages nothing.",
  "every valid input cloud, every list of isotropic cell sizes, every pooling mode, every level of the hierarchy, every point of the level",
  "Whether a cell average lies within the pooling radius of some point of its cell is a geometric fact about all arrangements of points in a cell and depends on the dimension; tests with uniform random points in 3D never meet the extreme arrangements.",
  ["pylib/pc/PointHierarchy.py:PointHierarchy", "pylib/pc/sampling.py:sample", "pylib/pc/layers/Pooling.py:_LocalPointPooling", "modelnet40.py:mymodel"])
p("C96", "Every point of a level is used by the strided layer",
  "A layer going from one level of a hierarchy to the next coarser one with a radius at least the sampling radius of that level sees every point of the finer level: each of them is a neighbour of at least one point of the coarser level, so no input is silently ignored.",
  "every valid input cloud, every sampling radius, every sampling mode, every point of the finer level",
  "Coverage must hold for all point arrangements; random test clouds rarely contain the isolated corner points that a cell average of the same radius leaves uncovered.",
  ["pylib/pc/sampling.py:sample", "pylib/pc/PointHierarchy.py:PointHierarchy", "modelnet40.py:conv_block", "modelnet40_small.py:mymodel"])

p("C97", "Logits of a shape do not depend on the rest of the batch (ModelNet40 network)",
  "At inference the classification network of modelnet40.py, fed with the constant features of its data pipeline and cell average sampling, returns one row of logits per shape, and the row of a shape is the same whatever other shapes are in the batch, at whatever position it stands, however much it is padded and in whatever order its points are listed. With non-empty shapes on the GPU the call raises no exception.",
  "every network (weights, number of levels, radii), every batch of padded shapes, every second batch containing a permutation of one of the shapes, every position",
  "The statement compares all pairs of batches; a test compares a few and cannot exclude that ids, sort orders or paddings of some other batch leak into the row of a shape.",
  ["modelnet40.py:mymodel", "modelnet40.py:conv_block", "pylib/pc/PointHierarchy.py:PointHierarchy", "pylib/pc/layers/Pooling.py:GlobalAveragePooling"])
p("C98", "One row of logits per shape (small ModelNet40 network)",
  "The classification network of modelnet40_small.py, which has no global pooling and takes the points of the last level for the shapes, returns exactly one row of logits per shape, in the order of the shapes; at inference the row is determined by the points and features of that shape alone. With non-empty shapes on the GPU the call raises no exception.",
  "every network, every batch of padded shapes with arbitrary features, both sampling modes for the number of rows, every other batch containing the shape",
  "Whether the last level has one point per shape depends on the extents of every shape of every batch; the network itself checks nothing.",
  ["modelnet40_small.py:mymodel", "pylib/pc/PointHierarchy.py:PointHierarchy", "pylib/pc/sampling.py:sample"])
p("C99", "The first convolution sees features of the points it convolves",
  "In modelnet40.py the feature that the initial convolution uses for a point of the first sampled level is the feature of an input point that the sample represents, so coordinates or normals used as input features belong to the neighbourhood of the sample.",
  "every input cloud, every cell size, every feature assignment, every point of the first level",
  "With the constant features used by the script any assignment of rows to points gives the same result, so no run of the script shows whether rows are taken from the right points.",
  ["modelnet40.py:mymodel", "pylib/pc/layers/MCConv.py:MCConv"])

p("C100", "Keys are exact in machine integers",
  "The key of a point computed in the integer type of the code (32 bit in the TensorFlow implementation, 64 bit in the CUDA kernels) equals the mathematical key, so points of different cells or of different batch elements never share a key, and table indices computed from keys and from cells coincide.",
  "every grid, every number of dimensions, batch elements and cells, every point",
  "Overflow starts at 2^31 cells over all batch elements, beyond any test cloud; whether every intermediate product stays exact has to be shown for all sizes below the limit.",
  ["pylib/pc/custom_ops/custom_ops_tf.py:compute_keys_tf", "custom_ops/tfg_custom_ops/shared/cc/kernels/grid_utils.h:compute_key_gpu_funct", "pylib/pc/Grid.py:Grid"])
p("C101", "Dividing keys in floating point does not change the table index",
  "The access structure of the TensorFlow implementation divides integer keys with a floating point division and takes the floor; the index obtained is the exact integer quotient, i.e. the 2D cell of the point.",
  "every key below 2^p and every positive divisor, every monotone rounding that is exact on integers below 2^p and has relative error at most 2^-p (float64: p = 53)",
  "The number of pairs of keys and divisors is beyond testing, and an error would show only for quotients just below an integer.",
  ["pylib/pc/custom_ops/custom_ops_tf.py:build_grid_ds_tf"])
p("C102", "Points stay inside the grid whatever rounding does",
  "The cell computed for a point of the cloud lies inside the grid even when coordinates, extents and quotients are rounded, so that its key lies in the range of its own batch element and its table index inside the table.",
  "every rounding (CUDA: arbitrary quotients), every cloud, cell size, number of dimensions and batch elements",
  "Depends on the rounding of a quotient for a point on the border of the bounding box; a test covers single coordinates.",
  ["pylib/pc/custom_ops/custom_ops_tf.py:compute_keys_tf", "custom_ops/tfg_custom_ops/shared/cc/kernels/grid_utils.h:compute_cell_gpu_funct", "pylib/pc/PointCloud.py:_AABB", "pylib/pc/Grid.py:Grid"])

p("C103", "GPU kernels stay inside their arrays",
  "Every kernel of the custom operations reads and writes only entries of the arrays it is given: the first N keys and points, the entries of the access structure, the neighbour pairs and their ends, the shared arrays of its block, and the entries of the tensor it fills.",
  "every input, every number of threads and blocks, every schedule, arbitrary contents of memory before and behind the arrays",
  "An access outside of an array often goes unnoticed in a test because the memory behind it is mapped; whether an index computed from data or by a race can leave the array needs an argument for all inputs and schedules.",
  ["custom_ops/tfg_custom_ops/build_grid_ds/cc/kernels/build_grid_ds_kernels.cu.cc", "custom_ops/tfg_custom_ops/find_neighbors/cc/kernels/find_ranges_grid_ds_kernels.cu.cc", "custom_ops/tfg_custom_ops/find_neighbors/cc/kernels/count_neighbors_kernels.cu.cc", "custom_ops/tfg_custom_ops/find_neighbors/cc/kernels/store_neighbors_kernels.cu.cc", "custom_ops/tfg_custom_ops/sampling/cc/kernels/sampling_avg_kernels.cu.cc", "custom_ops/tfg_custom_ops/sampling/cc/kernels/count_sampling_pd_kernels.cu.cc", "custom_ops/tfg_custom_ops/compute_pdf/cc/kernels/compute_pdf_kernels.cu.cc"])

p("C104", "The GPU operations accept every documented call",
  "Building a grid, searching neighbours, computing densities (and their gradients) and sampling on the GPU runs for every non-empty cloud with the documented shapes of cell sizes, radius and bandwidth; calls that the kernels cannot handle raise an error.",
  "every number of points, batch elements, dimensions and centres, every documented or wrong shape of the arguments, every device size",
  "tests use 2 or 3 dimensions, non-empty clouds and matching batch sizes",
  ["custom_ops/tfg_custom_ops/find_neighbors/cc/ops/find_neighbors_ops.cpp:FindNeighborsOp", "custom_ops/tfg_custom_ops/compute_keys/cc/ops/compute_keys_ops.cpp:ComputeKeysOp", "custom_ops/tfg_custom_ops/build_grid_ds/cc/ops/build_grid_ds_ops.cpp:BuildGridDsOp", "custom_ops/tfg_custom_ops/compute_pdf/cc/ops/compute_pdf_ops.cpp:ComputePDFOp", "custom_ops/tfg_custom_ops/sampling/cc/ops/sampling_ops.cpp:SamplingOp", "custom_ops/tfg_custom_ops/shared/cc/kernels/tf_gpu_device.cpp:check_error", "pylib/pc/custom_ops/custom_ops_wrapper.py", "pylib/pc/Grid.py:Grid"])
p("C105", "Convolution layers work on the GPU for every layer size",
  "A convolution layer that can be constructed can be evaluated with the custom operations, forward and backward; in particular all convolutions of the ModelNet40 network.",
  "every number of input features, MLPs, hidden units and kernel points, every list of feature sizes of the network",
  "tests use a handful of layer sizes, all powers of two",
  ["custom_ops/tfg_custom_ops/basis_proj/cc/ops/basis_proj_ops.cpp:BasisProjOp", "custom_ops/tfg_custom_ops/basis_proj/cc/ops/basis_proj_ops.cpp:BasisProjGradsOp", "pylib/pc/layers/MCConv.py:MCConv", "pylib/pc/layers/KPConv.py:KPConv", "pylib/pc/layers/PointConv.py:PointConv", "modelnet40.py:conv_block"])

p("C106", "The neighbour search on the GPU handles clouds of every size",
  "Every centre of a neighbour search on the GPU gets exactly its neighbours, and every entry of the 2D access structure is initialised, however many points, centres and cells there are.",
  "every number of samples, every cloud, every range and test result, all launch sizes and schedules, every number of batch elements and cells",
  "tests use a few thousand points; the 32 bit loop bound wraps around from 29826162 centres on",
  ["custom_ops/tfg_custom_ops/find_neighbors/cc/kernels/count_neighbors_kernels.cu.cc:count_neighbors_gpu_kernel", "custom_ops/tfg_custom_ops/find_neighbors/cc/kernels/store_neighbors_kernels.cu.cc:store_neighbors_gpu_kernel", "custom_ops/tfg_custom_ops/find_neighbors/cc/kernels/find_ranges_grid_ds_kernels.cu.cc:find_ranges_grid_ds_gpu", "custom_ops/tfg_custom_ops/find_neighbors/cc/ops/find_neighbors_ops.cpp:FindNeighborsOp", "custom_ops/tfg_custom_ops/build_grid_ds/cc/ops/build_grid_ds_ops.cpp:BuildGridDsOp"])

p("C107", "The TensorFlow and the CUDA neighbour search agree",
  "Whether or not the package of custom operations is installed, a neighbourhood computed for the same clouds, cell sizes, radii and limit contains the same pairs of points.",
  "every dimension from 2 on, every pair of clouds, grid, radii and limit, every schedule of the table kernel",
  "tests run one implementation at a time, with one radius equal to the cell size, and never compare the pairs of both on general inputs",
  ["pylib/pc/custom_ops/__init__.py", "pylib/pc/custom_ops/custom_ops_tf.py:find_neighbors_tf", "pylib/pc/custom_ops/custom_ops_wrapper.py:find_neighbors", "pylib/pc/Neighborhood.py:compute_neighborhoods"])

p("C108", "A layer on the GPU, from the points to its output",
  "Called on the same clouds, features and weights, a convolution or pooling layer returns the same output whether its neighbour search, density estimate and projection run as CUDA kernels or as TensorFlow operations, whatever the order in which the threads of the kernels run (a density constant of eight digits accounts for a relative deviation of at most 2e-8 of the Monte-Carlo convolution; rounding aside).",
  "every dimension from 2 on, every pair of clouds, features, weights, radius and bandwidth, every launch size and every schedule of every kernel of the call",
  "tests compare single operations on small random inputs under the schedules that happen to occur; the composition under all schedules is never exercised",
  ["pylib/pc/layers/MCConv.py:MCConv.__call__", "pylib/pc/layers/PointConv.py:PointConv.__call__", "pylib/pc/layers/KPConv.py:KPConv.__call__", "pylib/pc/layers/Pooling.py:_LocalPointPooling.__call__", "pylib/pc/custom_ops/custom_ops_wrapper.py", "pylib/pc/Neighborhood.py:compute_neighborhoods"])

p("C109", "Gradients of a layer on the GPU",
  "For every upstream gradient, the gradients that the backward pass of a convolution layer returns on the GPU are the derivatives of the output of the layer: along any differentiable motion of points, features and parameters the weighted sum of the outputs changes at the rate given by the returned gradients times the velocities, whatever the order in which the threads of the forward and backward kernels run.",
  "every cloud, feature, parameter, radius, bandwidth and upstream gradient, every differentiable curve through them, every launch size and every schedule of every kernel of both passes",
  "gradient tests compare finite differences at a few random points for a single operation and the schedules that happen to occur; they say nothing about other curves, about pairs near the radius or about the composed layer",
  ["pylib/pc/custom_ops/custom_ops_wrapper.py:_basis_proj_grad", "pylib/pc/custom_ops/custom_ops_wrapper.py:_compute_pdf_grad", "pylib/pc/layers/MCConv.py:MCConv.__call__", "pylib/pc/layers/PointConv.py:PointConv.__call__", "pylib/pc/layers/KPConv.py:KPConv.__call__"])

p("C110", "Point hierarchies built on the GPU",
  "Building a point hierarchy on the GPU never raises an exception on a valid cloud. With Poisson disk sampling and one cell size for all dimensions, every hierarchy the GPU can produce is one of those the TensorFlow implementation can produce from the same cloud; with cell averages the levels have exactly the points and batch ids of the TensorFlow levels, up to their order.",
  "every cloud, every list of positive cell sizes, both sampling modes, every launch size and every schedule of the neighbour search and sampling kernels of every level",
  "a unit test sees the schedules that happen to occur on one card, and a Poisson sample is not determined by its input, so there is no expected value to compare with",
  ["pylib/pc/PointHierarchy.py:PointHierarchy.__init__", "pylib/pc/sampling.py:sample", "pylib/pc/custom_ops/custom_ops_wrapper.py:sampling", "pylib/pc/custom_ops/custom_ops_tf.py:sampling_tf"])

p("C111", "The classification networks on the GPU",
  "A call of either ModelNet40 classification network on the GPU never raises an exception for a padded batch of non-empty shapes. With Poisson disk sampling the logits it returns are logits the TensorFlow implementation may return for the same input; with cell averages and constant features they are exactly those of the TensorFlow implementation, so the logits of a shape are the same in every run and in every batch that contains the shape.",
  "every network whose layer sizes the CUDA operations accept, every padded batch, every launch size and every schedule of every kernel of every level, training and inference for Poisson disk sampling",
  "the networks run hundreds of kernels one after the other; a test sees a few schedules on one card, and with random samples has no expected logits to compare with",
  ["modelnet40.py:mymodel", "modelnet40.py:conv_block", "modelnet40_small.py:mymodel", "pylib/pc/PointHierarchy.py:PointHierarchy", "pylib/pc/custom_ops/__init__.py"])
p("C112", "Reading a hierarchy",
  "get_sizes() and get_points() of a point hierarchy return one entry per level in the order of the levels: the number of points of every batch element, and the points of every batch element padded with zeros to the largest element of this level, or to max_num_points rows if given. This holds after any history of calls on the hierarchy and on its levels, and no call changes the points of a level.",
  "every hierarchy, every history of get_points, get_sizes and set_batch_shape calls on the hierarchy or a level, returned or raised",
  "every call stores something in the levels that later calls use, so the result depends on an unbounded history",
  ["pylib/pc/PointHierarchy.py:PointHierarchy.get_points", "pylib/pc/PointHierarchy.py:PointHierarchy.get_sizes", "pylib/pc/PointHierarchy.py:PointHierarchy.set_batch_shape", "pylib/pc/PointHierarchy.py:PointHierarchy.__getitem__"])

p("C113", "Static shapes and gradients of the custom operations",
  "If the inputs of a custom operation pass its checks, then every shape TensorFlow inferred for its outputs when the graph was built agrees with the shape of the tensor the operation returns, whatever part of the input shapes was known; and the gradients the registered gradient functions return have the shapes of the inputs they belong to.",
  "every input shape the operations accept, every partially known version of it (unknown rank, unknown dimensions), every number of neighbours and samples found",
  "the inferred shapes depend on which dimensions are known at graph construction; a test runs eagerly or with one signature",
  ["custom_ops/tfg_custom_ops/compute_keys/cc/ops/compute_keys_ops.cpp", "custom_ops/tfg_custom_ops/build_grid_ds/cc/ops/build_grid_ds_ops.cpp", "custom_ops/tfg_custom_ops/find_neighbors/cc/ops/find_neighbors_ops.cpp", "custom_ops/tfg_custom_ops/sampling/cc/ops/sampling_ops.cpp", "custom_ops/tfg_custom_ops/compute_pdf/cc/ops/compute_pdf_ops.cpp", "custom_ops/tfg_custom_ops/basis_proj/cc/ops/basis_proj_ops.cpp", "pylib/pc/custom_ops/custom_ops_wrapper.py"])
p("C114", "No layer divides by zero",
  "Whatever the positions of the points, the features and the weights, the result of MCConv and PointConv never depends on a division by zero: the densities, their maxima and the transformed densities the layers divide by are not zero.",
  "all clouds, radii, bandwidths, weights and features, on CPU and GPU, and every way a division by zero may be evaluated",
  "the divisors depend on the geometry of every neighbourhood and on trained weights; a test sees a few of them",
  ["pylib/pc/layers/MCConv.py:MCConv._monte_carlo_conv", "pylib/pc/layers/PointConv.py:PointConv._point_conv", "pylib/pc/Neighborhood.py:Neighborhood.get_pdf"])

p("C115", "The layout of the features between layers does not matter",
  "Layers can be called one after the other with the output of one as input of the next in whatever layout it was returned (one row per point, sorted, or padded): the final result is the composition of what the layers compute, row by row of the right points.",
  "every sequence of layers, every choice of return_sorted and return_padded for each, every history of calls on the point clouds before each call, sorted or unsorted batch ids",
  "every layer re-interprets the layout; errors would need a particular combination of layouts, unsorted batch ids and call histories",
  ["pylib/pc/utils.py:_flatten_features", "pylib/pc/layers/utils.py:_format_output", "pylib/pc/PointCloud.py:PointCloud.get_unflatten", "pylib/notebooks/Introduction.ipynb"])
p("C116", "A convolution with a tiny radius acts on every point alone",
  "If no two points of a batch element are closer than the radius, then MCConv, PointConv and KPConv from a cloud to itself compute the same linear map of the features at every point, i.e. they are a Conv1x1 with one weight matrix, whatever the positions.",
  "every cloud with isolated points, every radius below the distances, all weights and features",
  "needs neighbourhoods and densities of all clouds",
  ["pylib/pc/layers/MCConv.py:MCConv", "pylib/pc/layers/PointConv.py:PointConv", "pylib/pc/layers/KPConv.py:KPConv", "pylib/pc/layers/Conv1x1.py:Conv1x1", "pylib/notebooks/Introduction.ipynb"])
p("C117", "Reusing a neighbourhood does not change results",
  "Layers called with a precomputed neighbourhood of the clouds with the convolution radius return the same as layers that compute the neighbourhood themselves, however many layers use the same neighbourhood object before.",
  "every cloud, every sequence of MCConv and PointConv calls sharing one neighbourhood object, with or without an explicit sample cloud, all bandwidths",
  "the neighbourhood object stores densities and an order of the centres, so results depend on the history of calls and on the order of the points",
  ["pylib/pc/layers/MCConv.py:MCConv.__call__", "pylib/pc/layers/PointConv.py:PointConv.__call__", "pylib/pc/Neighborhood.py:Neighborhood.get_pdf", "pylib/pc/Neighborhood.py:Neighborhood.__init__", "pylib/notebooks/Introduction.ipynb"])

p("C118", "Every level of a hierarchy represents the whole input",
  "Every point of a level has a point of each coarser level of the same batch element nearby: closer than the sum of the sampling radii between the two levels for Poisson disk sampling, and closer than the sum of the cell sizes in every coordinate for cell averages. No level leaves the input: in every coordinate a point of a level lies between two points of the same batch element of every finer level.",
  "every valid cloud, every number of levels, all radii and cell sizes, every pair of levels, every sampling outcome and every schedule on the GPU",
  "errors of the levels add up; needs all numbers of levels, clouds and sampling outcomes",
  ["pylib/pc/PointHierarchy.py:PointHierarchy.__init__", "pylib/pc/sampling.py:sample", "pylib/pc/custom_ops/custom_ops_tf.py:sampling_tf"])
p("C119", "Turning the cloud and the filters together changes nothing",
  "If all points are rotated or reflected about the origin and the spatial filters of a layer are turned the same way (first layer of the kernel MLPs of MCConv, axes of PointConv, kernel points and offsets of KPConv), then the layer returns the same features.",
  "every orthogonal matrix, every dimension of at least two, all clouds, radii, bandwidths, weights and features",
  "all rotations and clouds: grids and cell orders change completely under a rotation, only the distances are kept",
  ["pylib/pc/layers/MCConv.py:MCConv", "pylib/pc/layers/PointConv.py:PointConv", "pylib/pc/layers/KPConv.py:KPConv", "pylib/pc/Neighborhood.py:Neighborhood.get_pdf", "pylib/pc/Grid.py:Grid"])
p("C120", "The reported validation accuracy is the accuracy on the test set",
  "The accuracy printed after an epoch is the fraction of test models to whose label the network assigns the largest logit when it is shown the model alone, and the printed loss is the mean of the losses of these models; both are independent of the random order of the models.",
  "every network with cell average sampling, every test set, batch size and random order, every loss of a row",
  "quantifies over all networks, test sets and permutations; a model that is left out leaves no trace in the logs",
  ["modelnet40.py:training", "modelnet40.py:modelnet_data_generator", "modelnet40.py:mymodel.__call__"])

p("C121", "The CUDA kernels have no data races",
  "No two threads of a launch access the same memory location without a barrier between them, unless both read or both use atomic instructions: in every kernel of the grid, neighbour search, sampling, density and projection operations.",
  "every input, number of points, centres, features and basis functions, every launch geometry, every schedule",
  "a data race shows itself only under some schedules and on some devices; tests run a few schedules of one device",
  ["custom_ops/tfg_custom_ops/find_neighbors/cc/kernels/scan_alg_kernels.cu.cc", "custom_ops/tfg_custom_ops/find_neighbors/cc/kernels/count_neighbors_kernels.cu.cc", "custom_ops/tfg_custom_ops/find_neighbors/cc/kernels/store_neighbors_kernels.cu.cc", "custom_ops/tfg_custom_ops/find_neighbors/cc/kernels/find_ranges_grid_ds_kernels.cu.cc", "custom_ops/tfg_custom_ops/find_neighbors/cc/kernels/elem_wise_min_kernels.cu.cc", "custom_ops/tfg_custom_ops/sampling/cc/kernels/count_sampling_pd_kernels.cu.cc", "custom_ops/tfg_custom_ops/sampling/cc/kernels/count_unique_keys_kernels.cu.cc", "custom_ops/tfg_custom_ops/sampling/cc/kernels/store_unique_keys_kernels.cu.cc", "custom_ops/tfg_custom_ops/sampling/cc/kernels/sampling_avg_kernels.cu.cc", "custom_ops/tfg_custom_ops/sampling/cc/kernels/store_sampled_pts_kernels.cu.cc", "custom_ops/tfg_custom_ops/basis_proj/cc/kernels/basis_proj_kernels.cu.cc", "custom_ops/tfg_custom_ops/basis_proj/cc/kernels/basis_proj_grads_kernels.cu.cc", "custom_ops/tfg_custom_ops/compute_pdf/cc/kernels/compute_pdf_kernels.cu.cc", "custom_ops/tfg_custom_ops/build_grid_ds/cc/kernels/build_grid_ds_kernels.cu.cc", "custom_ops/tfg_custom_ops/compute_keys/cc/kernels/compute_keys_kernels.cu.cc"])

p("C122", "Results do not depend on the timing of host and GPU",
  "The host code of the operations only enqueues work and goes on. Whenever the GPU executes the work, the results are those of executing every kernel and copy at once: the neighbours, samples and averages returned are the same, and numbers read back by the host are final.",
  "every input, every interleaving of the host, the stream of the operation and other users of page-locked memory after the operation has returned, every launch geometry",
  "the host runs ahead of the GPU by an amount that depends on load and device; tests with small inputs find the stream idle and the freed memory unused",
  ["custom_ops/tfg_custom_ops/find_neighbors/cc/ops/find_neighbors_ops.cpp", "custom_ops/tfg_custom_ops/find_neighbors/cc/kernels/scan_alg_kernels.cu.cc", "custom_ops/tfg_custom_ops/sampling/cc/ops/sampling_ops.cpp", "custom_ops/tfg_custom_ops/sampling/cc/kernels/count_unique_keys_kernels.cu.cc", "custom_ops/tfg_custom_ops/sampling/cc/kernels/count_sampling_pd_kernels.cu.cc", "custom_ops/tfg_custom_ops/shared/cc/kernels/tf_gpu_device.cpp"])

p("C123", "All threads of a block execute the same barriers",
  "In every kernel that uses block-wide barriers, all threads of a block execute the same barriers in the same order, as the CUDA programming model requires; otherwise the call may hang or read unfinished shared memory.",
  "every number of points, samples and neighbours, every number of blocks launched",
  "whether the condition holds depends on divisibility of the input sizes; a device may tolerate the violation silently and another may hang",
  ["custom_ops/tfg_custom_ops/find_neighbors/cc/kernels/count_neighbors_kernels.cu.cc", "custom_ops/tfg_custom_ops/find_neighbors/cc/kernels/scan_alg_kernels.cu.cc", "custom_ops/tfg_custom_ops/sampling/cc/kernels/count_unique_keys_kernels.cu.cc", "custom_ops/tfg_custom_ops/basis_proj/cc/kernels/basis_proj_kernels.cu.cc", "custom_ops/tfg_custom_ops/basis_proj/cc/kernels/basis_proj_grads_kernels.cu.cc"])
p("C124", "Calls leave no resources behind",
  "After a call of an operation has returned, all GPU events it created are released: the number of events does not grow with the number of calls.",
  "every history of calls of the operations, every input of each call, every value read back from the GPU",
  "a leak shows only after very many calls, in training runs far longer than any test",
  ["custom_ops/tfg_custom_ops/find_neighbors/cc/kernels/scan_alg_kernels.cu.cc", "custom_ops/tfg_custom_ops/sampling/cc/kernels/count_unique_keys_kernels.cu.cc", "custom_ops/tfg_custom_ops/sampling/cc/kernels/count_sampling_pd_kernels.cu.cc"])

p("C125", "Rounding decides only about pairs near the radius",
  "With coordinates, cell indices and distances computed in floating point arithmetic, the neighbour search returns every pair of a centre and a point of the same batch element that is closer than the radius by more than a small relative error, and no pair that is farther away than the radius by more than a small relative error. The error bound does not depend on the number of points.",
  "every cloud, every centre, all rounding errors allowed by the relative error of the number format, every schedule of the kernels",
  "rounding errors depend on the position of every point; a pair may be lost because its two points are sorted into cells that are too far apart, although the distance test would accept it",
  ["custom_ops/tfg_custom_ops/shared/cc/kernels/grid_utils.h", "custom_ops/tfg_custom_ops/shared/cc/kernels/math_helper.h", "custom_ops/tfg_custom_ops/find_neighbors/cc/kernels/count_neighbors_kernels.cu.cc", "custom_ops/tfg_custom_ops/find_neighbors/cc/kernels/store_neighbors_kernels.cu.cc"])
p("C126", "Coordinates that are not finite affect only their own points",
  "If some points have coordinates that are infinite or not numbers, the neighbour search still ends with a complete result: such points have no neighbours and are nobody's neighbours, and all pairs of the remaining points are found as if they were alone, even though the bounding box is spoiled.",
  "every cloud with finite and other coordinates, every value the conversion of such a number to an integer may give, every box, every schedule of the kernels",
  "conversion of such numbers to integers is undefined and differs between devices; the effect on other points depends on the cells all points are sorted into",
  ["custom_ops/tfg_custom_ops/shared/cc/kernels/grid_utils.h", "custom_ops/tfg_custom_ops/find_neighbors/cc/kernels/count_neighbors_kernels.cu.cc", "custom_ops/tfg_custom_ops/find_neighbors/cc/kernels/store_neighbors_kernels.cu.cc", "pylib/pc/Grid.py"])

p("C127", "The same call gives bit-identical results",
  "Calling an operation twice on the same inputs gives results that are equal bit for bit, although floating point addition is not associative and the order in which the threads run differs: the density estimation, the projection of features on basis functions, its gradients, and a layer made of the search and the projection.",
  "every input, every arithmetic (no law of addition or multiplication is assumed), all schedules of both calls, all numbers of resident blocks",
  "a test sees the few schedules of one device; two runs may agree by chance for years and differ on a loaded or a different device",
  ["custom_ops/tfg_custom_ops/basis_proj/cc/kernels/basis_proj_kernels.cu.cc", "custom_ops/tfg_custom_ops/basis_proj/cc/kernels/basis_proj_grads_kernels.cu.cc", "custom_ops/tfg_custom_ops/compute_pdf/cc/kernels/compute_pdf_kernels.cu.cc", "custom_ops/tfg_custom_ops/find_neighbors/cc/kernels/store_neighbors_kernels.cu.cc"])
p("C128", "Rounding errors of a convolution are bounded",
  "The features a convolution projects on its basis functions, and their gradients, differ from the exactly computed sums by at most a factor times the sum of the absolute values of the summands; the factor grows with the number of neighbours divided by the number of thread groups for the projection, and with the number of pairs of a point for the gradients. Two calls on the same inputs agree up to twice this bound whatever the schedules.",
  "every input, every rounding with a given relative error, every schedule of search, projection and gradient kernels, every order of the atomic additions",
  "rounding errors depend on all values and on the order of the additions, which differs from run to run",
  ["custom_ops/tfg_custom_ops/basis_proj/cc/kernels/basis_proj_kernels.cu.cc", "custom_ops/tfg_custom_ops/basis_proj/cc/kernels/basis_proj_grads_kernels.cu.cc", "custom_ops/tfg_custom_ops/find_neighbors/cc/kernels/store_neighbors_kernels.cu.cc"])

p("C129", "Logits of the tutorial network belong to the shapes",
  "The network of the tutorial returns one row of logits per shape of the batch, in training and at inference and for both sampling methods. At inference with cell averages the row of a shape depends only on its points and their features: not on the other shapes, the number of shapes or the order of the points. On the GPU the call raises no exception for at least one shape with at least one point.",
  "all networks of this architecture, all batches, point coordinates, features and parameters; any number of convolutions",
  "quantifies over all batches a shape can be part of and all depths",
  ["pylib/notebooks/ModelNet40.ipynb:mymodel", "pylib/pc/PointHierarchy.py:PointHierarchy", "pylib/pc/layers/Pooling.py:GlobalAveragePooling"])
p("C130", "Data generator of the tutorial over any history of calls",
  "After any history of calls, accesses and reshufflings each model still has its own label and occurs exactly once; every batch consists of points of distinct models with the labels of the same models; the k-th call after a reshuffling delivers batch k and calls beyond the last full batch raise IndexError without effect. The points delivered for a model are a random subset of its points.",
  "all data sets, batch sizes, histories, permutations and random selections, all numbers of epochs",
  "the arrays are shuffled in place, so a mismatch could appear after any number of reshufflings; random selections cannot be enumerated",
  ["pylib/notebooks/ModelNet40.ipynb:modelnet_data_generator"])
p("C131", "All models compared in the tutorial are trained with the same learning rates",
  "Every model trained in the tutorial sees the same sequence of learning rates, starting with the initial rate and decaying by the given factor per epoch.",
  "all initial rates, decay factors, numbers of batches, epochs and models",
  "the rate is state of an object shared by several cells; no cell shows it",
  ["pylib/notebooks/ModelNet40.ipynb:lr_decay", "pylib/notebooks/ModelNet40.ipynb:training"])

p("C132", "A checkpoint belongs to the results reported for its epoch, wherever the process ends",
  "Wherever a training process ends, the lists of results hold one entry per finished epoch, computed with the variables of that epoch; a checkpoint that can be loaded holds the variables whose validation was reported under its number; every saved epoch before the last one can be loaded; after the whole run the final variables can be loaded.",
  "all networks, optimisers, data, numbers of epochs and batches, save intervals, contents of the directory at the start, and all points of the execution at which the process may end, also within the write of a checkpoint",
  "a test cannot kill the process at every point of a run of any length",
  ["modelnet40_small.py:training", "modelnet40_small.py:model_MC"])
p("C133", "Training resumed from a checkpoint equals training without interruption",
  "Training continued from checkpoint e with the batches of the epochs that follow reaches the variables of the run without interruption.",
  "all networks, optimisers, data, points of interruption and numbers of further epochs",
  "the difference shows only after the learning rate has decayed, tens of epochs into a run",
  ["modelnet40_small.py:training", "modelnet40_small.py:optimizer", "modelnet40_small.py:lr_decay"])

p("C134", "Small movements of the points change the output only a little",
  "If points, centres and features move continuously, the outputs of MCConv, PointConv, KPConv and of local pooling move continuously. Pooled results change by at most the largest change of a feature.",
  "all clouds, batch ids, movements over any parameter space, positions, weights, radii, bandwidths and features",
  "continuity concerns arbitrarily small movements from every position; a test compares finitely many positions",
  ["pylib/pc/layers/MCConv.py:MCConv", "pylib/pc/layers/PointConv.py:PointConv", "pylib/pc/layers/KPConv.py:KPConv", "pylib/pc/layers/Pooling.py:_LocalPointPooling"])

p("C135", "Recording every point several times does not change the result",
  "If every point of the input is recorded m times with the same features, MCConv, local and global pooling give the same output. Cell averages are the same, and Poisson sampling can return the same samples even if the points are recorded differently often: they depend only on the places that are occupied. So the levels of a point hierarchy after the first are the same, and the network of the tutorial with MCConv as its first convolution has the same possible logits.",
  "all clouds, batch ids, repetitions in any order, numbers of repetitions, weights, radii, bandwidths, features and devices",
  "a test repeats the points of some clouds a few times; the statement is for every cloud, order and number",
  ["pylib/pc/layers/MCConv.py:MCConv", "pylib/pc/layers/PointConv.py:PointConv", "pylib/pc/layers/KPConv.py:KPConv", "pylib/pc/layers/Pooling.py:_LocalPointPooling", "pylib/pc/sampling.py:sample", "pylib/pc/PointHierarchy.py:PointHierarchy", "pylib/notebooks/ModelNet40.ipynb:mymodel"])
p("C136", "The output at a centre depends only on points close to it",
  "Two inputs that agree around a centre give the same output there: within one radius for KPConv and local pooling, within two radii for MCConv and PointConv (features within one), and within twice the sum of the radii for a sequence of Monte Carlo convolutions. For MCConv one radius is not enough.",
  "all pairs of clouds, batch elements, centres, weights, radii, numbers of layers, activations and devices",
  "the points far away are arbitrary, in number and place; a test tries a few of them",
  ["pylib/pc/layers/MCConv.py:MCConv", "pylib/pc/layers/PointConv.py:PointConv", "pylib/pc/layers/KPConv.py:KPConv", "pylib/pc/layers/Pooling.py:_LocalPointPooling"])
p("C137", "A library is accepted if its version meets the requested one",
  "The configuration accepts a version exactly if all elements of the requested version are present in it; the comparison with CUDA 10.1 decides by the number in the header.",
  "all versions of digits and dots, and all numbers in the header",
  "there are infinitely many versions, later ones are unknown when the test is written",
  ["custom_ops/gpu/find_cuda_config.py:_matches_version", "custom_ops/gpu/find_cuda_config.py:_at_least_version"])
p("C138", "The search returns the first installed library with the requested version",
  "If a header of the requested version lies in one of the directories, the configuration finds one, the first in the order of the directories, and reports its version; otherwise it fails.",
  "all directories, contents of the headers, and requested versions",
  "the outcome depends on the directories and files of the machine",
  ["custom_ops/gpu/find_cuda_config.py:_find_versioned_file", "custom_ops/gpu/find_cuda_config.py:_get_header_version", "custom_ops/gpu/find_cuda_config.py:_find_cuda_config", "custom_ops/gpu/find_cuda_config.py:_find_cudnn_config", "custom_ops/gpu/find_cuda_config.py:_find_tensorrt_config"])
p("C139", "An old variable naming the directory of libraries leads to the directory above",
  "If an old variable is set to root/lib/x86_64-linux-gnu, the search goes to root; any other value is a list of directories separated by commas.",
  "all values of the variable",
  "the variable is an arbitrary string",
  ["custom_ops/gpu/find_cuda_config.py:_get_legacy_path"])

p("C140", "The network of the tutorial gives the same logits on the GPU",
  "The network of the tutorial computed with the CUDA operations returns the logits that the network computed with TensorFlow functions may return: the same ones on given levels and with cell averages, one of the possible ones with Poisson disk sampling. A run on the GPU always returns.",
  "all networks of this architecture with any number of convolutions of the three kinds, all batches, features, parameters and schedules of the threads",
  "quantifies over all schedules of all kernels and all depths of the network",
  ["pylib/notebooks/ModelNet40.ipynb:mymodel", "pylib/pc/custom_ops/custom_ops_wrapper.py:find_neighbors", "pylib/pc/PointHierarchy.py:PointHierarchy"])

p("C141", "Diameters of the bounding boxes after any calls",
  "get_AABB().get_diameter() of a point cloud can be called at any time; it returns for every batch element the diameter of the box of the points of this element, in the batch shape the cloud has at the time of the call. The same holds for the levels of a hierarchy.",
  "all clouds, all norms, all histories of calls on the cloud, all batch shapes, all hierarchies",
  "the result depends on the order of all earlier calls; a test sees one history",
  ["pylib/pc/PointCloud.py:_AABB.get_diameter", "pylib/pc/PointCloud.py:PointCloud.get_AABB", "pylib/pc/PointCloud.py:PointCloud.set_batch_shape", "pylib/pc/PointHierarchy.py:PointHierarchy.set_batch_shape"])
p("C142", "Random numbers of the threads of the limited neighbour search",
  "In one launch of the search with a neighbour limit different threads are never in the same state after the same number of draws. A thread runs through all non-zero 32 bit numbers before it repeats one, so its draws do not cycle early. Launches in different seconds use different streams.",
  "all launch times, all pairs of threads, all numbers of draws",
  "the period is 2^32 - 1 draws for each of 2^32 seeds; a test sees a few draws of one launch",
  ["custom_ops/tfg_custom_ops/shared/cc/kernels/rnd_utils.h:wang_hash", "custom_ops/tfg_custom_ops/shared/cc/kernels/rnd_utils.h:rand_xorshift", "custom_ops/tfg_custom_ops/find_neighbors/cc/kernels/store_neighbors_kernels.cu.cc:store_neighbors_limited_gpu_kernel"])

p("C143", "Sampling a sample again",
  "A cloud that has been subsampled is not thinned out further by sampling it again with the same or smaller sizes: all points of a sample are kept, so repeating a level of a hierarchy is harmless.",
  "all clouds, radii, scan orders and schedules, all pairs of radii of which the second is not larger",
  "a statement about two runs for every cloud; tests sample once",
  ["pylib/pc/sampling.py:sample", "pylib/pc/sampling.py:poisson_disk_sampling", "pylib/pc/sampling.py:cell_average_sampling", "pylib/pc/custom_ops/custom_ops_tf.py:sampling_tf", "custom_ops/tfg_custom_ops/sampling/cc/kernels/count_sampling_pd_kernels.cu.cc"])
p("C144", "Sizes are bounded by the extent, not by the number of input points",
  "A Poisson sample has at most (m D)^D points of one batch element in a box of m radii, a cell average at most (m + 1)^D in a box of m cells, however many points the input has. So the neighbourhoods of a sampled level and the list of pairs of a search on it are bounded by a number that depends on the ratio of the radii and the dimension only.",
  "all clouds of any size, all boxes, all radii, all centres",
  "a bound uniform in the number of points",
  ["pylib/pc/sampling.py:poisson_disk_sampling", "pylib/pc/sampling.py:cell_average_sampling", "pylib/pc/Neighborhood.py:Neighborhood", "pylib/pc/custom_ops/custom_ops_tf.py:find_neighbors_tf"])
p("C145", "The neighbour list is as long as the list of pairs that is stored",
  "The CUDA search allocates its list of pairs for the pairs it then stores: every pair is written inside the list and into the slots of its own centre, no slot is left without a pair and none is written for two centres.",
  "all ranges, all outcomes of the distance test in the counting and in the storing kernel, all numbers of blocks and all schedules",
  "the two kernels evaluate the test separately; whether they differ depends on the compiler and on points within a rounding error of the radius",
  ["custom_ops/tfg_custom_ops/find_neighbors/cc/kernels/count_neighbors_kernels.cu.cc:count_neighbors_gpu_kernel", "custom_ops/tfg_custom_ops/find_neighbors/cc/kernels/store_neighbors_kernels.cu.cc:store_neighbors_gpu_kernel", "custom_ops/tfg_custom_ops/find_neighbors/cc/ops/find_neighbors_ops.cpp:FindNeighborsOp"])

p("C146", "The emulated atomic maximum of floats",
  "Threads that combine values into one memory word with the atomic maximum of the kernel utilities do so atomically: after all threads have returned, the word is what some order of the threads would have given one after another, so it is the largest of the numbers; no thread tries forever, and each returns as documented.",
  "all numbers of threads, all values (also not-a-number and both zeros), all interleavings of the compare-and-swap attempts",
  "races between threads; a test sees one schedule",
  ["custom_ops/tfg_custom_ops/shared/cc/kernels/cuda_kernel_utils.h:atomicMax"])
p("C147", "Activation functions and their derivatives",
  "The backward method of each activation function of the kernel headers returns the derivative of its forward method, given the value the forward pass produced.",
  "all real arguments, all activation functions of the header",
  "a derivative at every argument; tests sample finitely many and use tolerances",
  ["custom_ops/tfg_custom_ops/shared/cc/kernels/nn_utils.h"])
p("C148", "Searches with different radii fit together",
  "Enlarging the radius never loses a pair: the search with the smaller radius finds exactly those pairs of the larger search that lie below the smaller radius, though it uses another grid. Going from a centre to a neighbour and from there to one of its neighbours reaches only points that one search with the sum of the radii finds. Max pooling over a larger radius never gives a smaller value.",
  "all clouds, centres, pairs of radii, both devices",
  "relates two or three runs with different grids for every input",
  ["pylib/pc/Neighborhood.py:Neighborhood", "pylib/pc/Grid.py:Grid", "pylib/pc/layers/Pooling.py:MaxPooling", "pylib/pc/layers/Pooling.py:AveragePooling"])
p("C149", "Deformable kernel point convolutions",
  "A deformable layer extends the rigid one: with zero offset weights both compute the same, and both return zero for zero features and are linear in the convolution weights. Its output can be differentiated with respect to everything that is trained, so that training with gradients makes sense.",
  "all clouds, layers, weights, offset weights and features, all differentiable curves in them",
  "equality for all inputs and existence of derivatives at every point",
  ["pylib/pc/layers/KPConv.py:KPConv", "pylib/pc/layers/KPConv.py:_linear_weighting", "pylib/pc/layers/KPConv.py:_gaussian_weighting"])

p("C150", "The GPU search examines few points",
  "For one centre, wherever it lies, the neighbour search on the GPU computes the distance to each point at most once, and only to points of the centre's batch element inside a box of three cell sizes per dimension; for a centre inside the extent of the cloud these are closer than two cell sizes per dimension. On a Poisson-sampled cloud the number of distances per centre is therefore bounded by a constant that does not depend on the number of points.",
  "all clouds in two and three dimensions, all centres, cell sizes, tables built under any schedule",
  "a bound on the work for every cloud; tests only compare results, which stay correct when far too many points are examined",
  ["custom_ops/tfg_custom_ops/find_neighbors/cc/kernels/find_ranges_grid_ds_kernels.cu.cc", "custom_ops/tfg_custom_ops/find_neighbors/cc/kernels/count_neighbors_kernels.cu.cc", "custom_ops/tfg_custom_ops/find_neighbors/cc/ops/find_neighbors_ops.cpp"])

p("C151", "Counting neighbour pairs in 32 bits",
  "The GPU neighbour search counts neighbours, and addresses the rows it writes, with 32 bit integers. As long as a search has fewer than 2^31 pairs its result is exactly that of unbounded integers; the number of rows of the result is always the number of pairs modulo 2^32.",
  "all numbers of centres for which the thread numbers fit, all search ranges and distance tests, launch geometries and schedules",
  "the limit lies at two thousand million pairs; no test allocates that",
  ["custom_ops/tfg_custom_ops/find_neighbors/cc/ops/find_neighbors_ops.cpp", "custom_ops/tfg_custom_ops/find_neighbors/cc/kernels/store_neighbors_kernels.cu.cc", "custom_ops/tfg_custom_ops/find_neighbors/cc/kernels/scan_alg_kernels.cu.cc"])
p("C152", "A layer restored from a checkpoint computes the same",
  "The numbers stored by save_weights determine what a layer computes: read into a layer constructed again with the same arguments, whatever its random initial values, they give a layer with the same results on every point cloud.",
  "all layer sizes, numbers, initial values, clouds, features and devices",
  "two constructions differ in their random numbers; a test that restores into the same object cannot see what was not stored",
  ["pylib/pc/layers/MCConv.py", "pylib/pc/layers/PointConv.py", "pylib/pc/layers/KPConv.py", "pylib/pc/layers/utils.py", "modelnet40_small.py"])
p("C153", "Number of parameters of the layers",
  "The number of trainable parameters of a layer depends on its arguments only, not on the data, by a closed formula: MCConv m(D h + h) + h C_in C_out for m kernels with one hidden layer of size h (in general the sum over the hidden layers), PointConv (D+1) h + h C_in C_out + 49, KPConv k C_in C_out (deformable: plus k C_in k D), Conv1x1 C_in C_out + C_out. The introduction notebook prints these numbers.",
  "all hyperparameters",
  "a formula over all hyperparameters",
  ["pylib/pc/layers/MCConv.py", "pylib/pc/layers/PointConv.py", "pylib/pc/layers/KPConv.py", "pylib/pc/layers/Conv1x1.py", "pylib/notebooks/Introduction.ipynb"])

p("C154", "Gradients of the kernel point convolution are the derivatives",
  "Automatic differentiation of a KPConv layer and of its regularization loss returns numbers, and these are the partial derivatives: with respect to the offset weights and the features (deformable layers) and the points (rigid layers).",
  "all layer sizes, kernel points, weights, clouds, features, radii and linear losses of the outputs; all devices",
  "the gradient checks draw output points that differ from all input points; a gradient that is not a number appears only where a distance is exactly zero (or in the regularization loss, always)",
  ["pylib/pc/layers/KPConv.py", "pylib/pc/layers/utils.py", "pylib/pc/layers/tests/kernel_point_conv_test.py"])

p("C155", "Rounding errors of the densities",
  "On the GPU, in single precision with gradual underflow, the computed density of a point is the exact one up to a relative error of one thousandth (usually much less) and is positive, so that layers can divide by it; the error does not grow with the number of neighbours, the size or position of the cloud, or the radius.",
  "all clouds of up to six dimensions, all radii between 2^-100 and 2^100, constant bandwidths between 1/8 and 8, up to 2^20 neighbours, all schedules and launch sizes; general accuracies in C155_density",
  "the test compares the densities with those of a reference within a fixed tolerance, for clouds of one size in the unit cube; cancellation, underflow and accumulated errors appear for other sizes, positions and scales",
  ["custom_ops/tfg_custom_ops/compute_pdf/cc/kernels/compute_pdf_kernels.cu.cc", "pylib/pc/custom_ops/custom_ops_wrapper.py"])

p("C156", "Gradients of the Monte Carlo convolution with respect to all its parameters",
  "The gradients that automatic differentiation returns for a Monte Carlo convolution (weights and biases of every layer of every kernel MLP, final weights, features, input points and output points) are the partial derivatives of the loss: along every motion of all of them the derivative of the loss is the sum of gradients times velocities.",
  "all clouds, layer sizes, numbers of MLPs and of their layers, activation functions, upstream gradients, motions, and all schedules of the GPU operations",
  "a numerical check of gradients compares a few values at random positions; which parts of the parameters receive which sums, and what happens exactly at kinks, concerns every configuration",
  ["pylib/pc/layers/MCConv.py:_monte_carlo_conv", "pylib/pc/layers/MCConv.py:__init__", "pylib/pc/layers/MCConv.py:non_linearity_types"])

p("C157", "Gradients of the pooling layers",
  "The gradients that automatic differentiation returns for the features of maximum and average pooling, global and local, are the derivatives of the loss; at ties of the maximum they are subgradients; and in every channel they add up to the upstream gradients of the outputs that are not empty.",
  "all clouds, batch sizes, radii, features, upstream gradients and motions of the features, on CPU and GPU",
  "a test compares a few values at random features, where ties have probability zero; in practice features behind a ReLU tie at zero all the time, and neighbourhoods overlap in every possible way",
  ["pylib/pc/layers/Pooling.py:GlobalMaxPooling", "pylib/pc/layers/Pooling.py:GlobalAveragePooling", "pylib/pc/layers/Pooling.py:_LocalPointPooling", "pylib/pc/layers/Pooling.py:MaxPooling", "pylib/pc/layers/Pooling.py:AveragePooling"])

p("C158", "Gradients of PointConv with respect to all its parameters and the points",
  "The gradients that automatic differentiation returns for PointConv (kernel network, density network, final weights, features, input points including their influence on the densities, and output points) are the partial derivatives of the loss: along every motion of all of them the derivative of the loss is the sum of gradients times velocities. The gradients of the densities of a neighbourhood are orthogonal to the densities, since only ratios of densities matter.",
  "all clouds, layer sizes, activation functions, upstream gradients, motions, and all schedules of the GPU operations",
  "a numerical check of gradients compares a few values at random positions; the density enters twice, directly and as the maximum of its neighbourhood, and every point takes part in many neighbourhoods, so that which sums belong to which parameter concerns every configuration",
  ["pylib/pc/layers/PointConv.py:_point_conv", "pylib/pc/layers/PointConv.py:__call__", "pylib/pc/layers/PointConv.py:non_linearity_types"])

p("C159", "Gradients of the training loss through the classification head",
  "The gradients that automatic differentiation returns for the training loss of the two example networks with respect to the logits, to all trainable parameters of the classification head (matrices, biases, scales and offsets of the batch normalisations) and to the features of the last convolution are the derivatives of the loss: along every motion of all of them the derivative of the loss is the sum of gradients times velocities. Every wrongly classified model of the batch gets a gradient.",
  "all batch sizes, numbers of classes, labels, parameters, dropout masks and motions; both orders of activation and dropout",
  "a test compares a few values with finite differences; batch normalisation couples all models of a batch, so every gradient depends on the whole batch, and the clipping of the probabilities only acts for logits that a randomly initialised network does not produce",
  ["modelnet40.py:loss_function", "modelnet40.py:training", "modelnet40_small.py:loss_function", "modelnet40_small.py:mymodel"])

p("C160", "Gradients of the whole small classification network",
  "A training step of the small example network returns the gradients of the training loss: along every motion of all trainable variables of the network (kernel networks and weights of all convolutions, matrices, biases, scales and offsets of the batch normalisations, both dense layers of the head) the derivative of the loss at the current values is the sum of gradients times velocities, whatever the schedules of the GPU in the forward pass, in the backward pass and in all other evaluations of the loss.",
  "all hierarchies of clouds, features, labels, numbers of levels and of channels, convolution types (Monte Carlo, PointConv, rigid KPConv), dropout masks, warp counts, thread schedules and motions",
  "a test differentiates a network numerically for a few inputs in one schedule; a wrong gradient of one of the many parameters still decreases the loss, so training does not reveal it",
  ["modelnet40_small.py:mymodel", "modelnet40_small.py:training", "pylib/pc/layers/MCConv.py:MCConv", "pylib/pc/layers/PointConv.py:PointConv", "pylib/pc/layers/KPConv.py:KPConv"])
p("C161", "Gradients of the whole residual classification network",
  "A training step of the residual example network returns the gradients of the training loss: along every motion of all trainable variables (first convolution, all residual blocks with their skip connections, maximum pooling between levels, global average pooling, head) the derivative of the loss at the current values is the sum of gradients times velocities, whatever the schedules of the GPU; in particular the gradients of both branches of a block are added up.",
  "all hierarchies of clouds, features, labels, numbers of levels and of channels, convolution types (Monte Carlo, PointConv, rigid KPConv), dropout masks, warp counts, thread schedules and motions",
  "a test differentiates a network numerically for a few inputs in one schedule; a missing contribution of a skip connection still decreases the loss, so training does not reveal it",
  ["modelnet40.py:mymodel", "modelnet40.py:conv_block", "modelnet40.py:training", "pylib/pc/layers/Pooling.py:MaxPooling", "pylib/pc/layers/Pooling.py:GlobalAveragePooling"])

p("C162", "Updates of the variables by the optimisers",
  "After a training step at which not all gradients are zero, every small enough learning rate lowers the loss of both example networks on the same batch, whatever the optimiser has accumulated before and whatever the schedules of the GPU. No update moves a number of a variable by more than the learning rate divided by the square root of one minus the decay, and with the learning rate schedule of the scripts no number ever leaves a fixed interval around its first value, however long the training and whatever the data; a number without gradient keeps its value, so the biases in front of a batch normalisation are never trained.",
  "all networks, inputs, gradients, histories of the accumulators, numbers of updates, schedules of the GPU; for the decrease of the loss all small enough learning rates",
  "a test observes the loss of a few training steps; a wrong sign or a wrong accumulator of one of many variables is compensated by the others, and bounds over trainings of any length cannot be run",
  ["modelnet40.py:training", "modelnet40_small.py:training", "pylib/notebooks/ModelNet40.ipynb:training"])

p("C163", "The small network restored from a checkpoint",
  "Saving the weights of the small example network and loading them into a network constructed again with the same arguments gives a network with the same logits and the same exceptions in every call, whatever the initial values of the new network; this includes the moving moments of the batch normalisations. A call of a constructed network uses every layer exactly once, in the order of construction, with numbers of features that fit.",
  "all layer types, feature sizes, numbers of layers, radii, values of all variables, inputs, results of the sampling, devices",
  "a test saves and loads one network and compares some outputs; it does not cover every number of layers, by which the positions in the lists are computed, nor all values",
  ["modelnet40_small.py:mymodel", "modelnet40_small.py:training", "pylib/pc/layers/MCConv.py:MCConv", "pylib/pc/layers/PointConv.py:PointConv", "pylib/pc/layers/KPConv.py:KPConv", "pylib/pc/layers/Conv1x1.py:Conv1x1"])

p("C164", "Every shape of a batch may be moved on its own",
  "If each shape of a batch is moved by a vector of its own, neighbour lists, densities, outputs of all convolutions and pooling layers, cell averages (moved along), Poisson samples (moved along), hierarchies and the logits of both classification networks have the same possible results, exceptions included, in training and at inference, on both devices and whatever fills the padding. At inference with constant input features and cell averages a shape gets the same logits wherever it lies, in whatever order its points come and whatever else is in the batch.",
  "all clouds, radii, layers, networks, movements (one vector per shape), batch sizes, padding, random choices of the sampling",
  "a test moves one cloud as a whole; movements of single shapes change cell numbers, order of the cells and bounding boxes of every element differently",
  ["pylib/pc/Grid.py:Grid", "pylib/pc/Neighborhood.py:Neighborhood", "pylib/pc/PointHierarchy.py:PointHierarchy", "pylib/pc/sampling.py:sample", "modelnet40.py:mymodel", "modelnet40_small.py:mymodel"])
p("C165", "The order of the shapes of a batch does not matter, in training either",
  "If the shapes of a batch are put in another order, the points of every shape in another order and the padding is changed, and the dropout treats every shape as before, each shape gets the same logits in its new place, in training (normalisation by the statistics of the batch) and at inference; the training loss is the same for labels in the new order, and the gradient of the loss for the logits goes to the new places.",
  "all networks, batches, orders of the shapes and their points, padding, dropout masks that move along, labels; for the small network all input features",
  "a test trains on one order; sums over the batch, sorting by batch ids and cells and the pooling mix the rows of all shapes, and the number of orders is factorial",
  ["modelnet40.py:mymodel", "modelnet40_small.py:mymodel", "modelnet40.py:training", "pylib/pc/Grid.py:Grid", "pylib/pc/PointHierarchy.py:PointHierarchy"])

p("C166", "Gradients do not depend on the order and the places of the shapes of a batch",
  "Two training steps of a classification network with the same variables, one with the shapes of the batch in another order, their points in another order, every shape moved by a vector of its own and the labels and the dropout going with the shapes, have the same loss and the same gradients for all variables, so the optimiser makes the same update.",
  "all networks, variables, batches, orders of the shapes and their points, movements, labels, dropout masks that move along; at points where the loss is differentiable in the sense of C160 and C161",
  "a test compares one reordering for one network within a tolerance; the gradients are sums over pairs, cells and rows of all shapes, which are enumerated in an order that depends on the place of every shape",
  ["modelnet40.py:training", "modelnet40.py:mymodel", "modelnet40_small.py:mymodel", "pylib/pc/layers/MCConv.py:MCConv", "pylib/pc/Grid.py:Grid"])

p("C167", "Residual networks keep the shapes of a batch apart",
  "If one shape of a batch is moved, the rows that PointResNet and PointResNetSpatialBottleNeck return for the other shapes do not change, nor do those of the moved shape; a shape gets the same rows in every batch that contains it, wherever it lies, with normalisations that do not mix shapes.",
  "all clouds, layers, numbers of blocks, movements (one vector per shape), other shapes of the batch, orders of the points, devices",
  "a test with one shape or a fixed batch cannot see that rows of one shape are computed with coordinates of another one",
  ["pylib/pc/layers/network_blocks.py:PointResNet", "pylib/pc/layers/network_blocks.py:PointResNetSpatialBottleNeck", "pylib/pc/Neighborhood.py:Neighborhood", "pylib/pc/Grid.py:Grid"])

p("C168", "Gradients of the network of the tutorial",
  "A training step of the notebook returns the gradients of the training loss: along every motion of all trainable variables (convolutions, normalisations, dense layers) the derivative of the loss at the current values is the sum of gradients times velocities, whatever the schedules of the GPU. Every run of the network that returns can be such a step.",
  "all hierarchies of clouds, features, labels, numbers of convolutions and of channels, convolution types (Monte Carlo, PointConv, rigid KPConv; the notebook trains one model of each), warp counts, thread schedules and motions",
  "a test differentiates a network numerically for a few inputs in one schedule; a gradient that misses a contribution still decreases the loss",
  ["pylib/notebooks/ModelNet40.ipynb:mymodel", "pylib/notebooks/ModelNet40.ipynb:tf.GradientTape", "pylib/pc/layers/Pooling.py:GlobalAveragePooling"])

p("C169", "Poisson samples of a cloud have comparable sizes",
  "How many points Poisson disk sampling keeps is determined up to a constant: of two samples of the same cloud with the same radius, whichever starting points, schedules or implementation (TensorFlow functions, GPU operation) produced them, each has in every batch element at most 3^D times as many points as the other, in D dimensions. With radii that differ by a factor the constant is (2R+1)^D, and levels of two point hierarchies of one cloud are comparable in the same way. The sizes need not be equal.",
  "all clouds, batch elements, dimensions, radii, starting points, schedules, hierarchies",
  "a test counts the samples of a few runs; how far two runs can differ is a statement about all pairs of runs",
  ["pylib/pc/sampling.py:sample", "pylib/pc/custom_ops/custom_ops_tf.py:sampling_tf", "pylib/pc/tests/sample_test.py:test_sampling_poisson_disk_on_uniform", "pylib/pc/PointHierarchy.py:PointHierarchy"])
p("C170", "The unit of length does not matter",
  "If all coordinates, sampling radii and convolution radii are multiplied by one positive factor (meters to centimeters), nothing else changes: Poisson sampling can return exactly the same points in the new unit, point hierarchies have the same levels, and the networks of the tutorial and of the ModelNet40 scripts have the same possible logits with the same weights, in training and in evaluation. PointConv needs the first layer of its kernel network divided by the factor, and for cell averages the border added to bounding boxes has to be given in the new unit; in the code it is a constant, so that the number of samples can change with the unit.",
  "all clouds and batches, positive factors, radii, weights, networks with any number of levels, starting points and schedules of Poisson sampling, borders of the bounding boxes",
  "a test compares two units on a few clouds; absolute constants hidden in the code show only for particular distances",
  ["pylib/notebooks/ModelNet40.ipynb:mymodel", "modelnet40.py:mymodel", "modelnet40_small.py:mymodel", "pylib/pc/sampling.py:sample", "pylib/pc/PointHierarchy.py:PointHierarchy", "pylib/pc/layers/PointConv.py:PointConv", "pylib/pc/Grid.py:Grid"])

p("C171", "Turning the shapes and the filters of a network changes nothing",
  "If all points of all shapes of a batch are turned or reflected by one orthogonal map, and the filters of all layers are turned along (the first layer of the kernel networks of MCConv and PointConv, the kernel points and offsets of KPConv), nothing changes: Poisson sampling can return exactly the turned samples, point hierarchies can have exactly the turned levels, and the networks of the tutorial and of the ModelNet40 scripts have the same possible logits, in training and in evaluation. This fails for cell averages, as the cells of the grid do not turn with the points: even the number of samples can change.",
  "all clouds and batches, orthogonal maps, radii, weights, networks with any number of levels, starting points and schedules of Poisson sampling",
  "a test turns a few clouds by a few angles; the result has to be compared for all choices of the random sampling, and the grid is not symmetric, so that a dependence on the axes would show only for particular positions",
  ["pylib/notebooks/ModelNet40.ipynb:mymodel", "modelnet40.py:mymodel", "modelnet40_small.py:mymodel", "pylib/pc/sampling.py:sample", "pylib/pc/PointHierarchy.py:PointHierarchy", "pylib/pc/layers/MCConv.py:MCConv", "pylib/pc/layers/PointConv.py:PointConv", "pylib/pc/layers/KPConv.py:KPConv", "pylib/pc/Grid.py:Grid"])

p("C172", "The residual network sees only which places a shape occupies",
  "With Poisson sampling and equal features at all points, as modelnet40.py passes them, the possible logits of the network of modelnet40.py depend only on the set of places occupied by the points of each shape: how often, in which order and with which padding the points are recorded does not matter, whatever convolutions are used, in training and in evaluation. This fails for cell averages.",
  "all batches of shapes occupying the same places, all radii, weights, convolutions, and all choices and schedules of Poisson sampling",
  "a test compares a few recordings of a few shapes; the logits are random, so that sets of possible results have to be compared",
  ["modelnet40.py:mymodel", "pylib/pc/sampling.py:sample", "pylib/pc/PointHierarchy.py:PointHierarchy"])
p("C173", "Selected points are copied once, with their own batch ids and indices, in every schedule",
  "The GPU kernels that copy the selected points to the output (store_pooled_pts and store_sampled_pts) reserve a position with an atomic addition and then write coordinates, batch id and index one after the other, while other threads go on. Whatever the schedule, at the end every selected point appears exactly once, its three entries stand at the same position, the positions are 0, 1, ..., number of selected points - 1, and nothing else is written; no entry is written twice, no two threads are at the same position, no thread writes beyond the number of selected points, and no schedule runs forever.",
  "all numbers of points and threads, selections, point data, and all interleavings of the single steps of the threads",
  "a test sees the few schedules that the device happens to choose; a mixed up entry would need an unlucky interleaving",
  ["custom_ops/tfg_custom_ops/find_neighbors/cc/kernels/store_pooled_pts_kernels.cu.cc:store_pooled_pts_gpu_kernel", "custom_ops/tfg_custom_ops/sampling/cc/kernels/store_sampled_pts_kernels.cu.cc:store_sampled_pts_gpu_kernel"])

p("C174", "The random logits of the shapes of a batch are independent of each other",
  "At inference with Poisson sampling the logits are random. For the networks of modelnet40.py (equal features at all points, as in the script) and of the tutorial (any features), the possible logits of a batch are exactly the combinations of rows that are possible for its shapes, each processed alone: neither the other shapes, nor their number, nor the choices made for them restrict what can be computed for a shape, or add anything to it.",
  "all batches of non-empty shapes, all radii, weights, convolutions and features, and all choices of Poisson sampling on all levels",
  "a test sees single random results; that two sets of possible results are equal, and that all combinations occur, cannot be observed",
  ["modelnet40.py:mymodel", "pylib/notebooks/ModelNet40.ipynb:mymodel", "pylib/pc/sampling.py:sample", "pylib/pc/PointHierarchy.py:PointHierarchy"])

p("C175", "With one shape per batch nothing is learned from the shape",
  "In training with a batch of one shape the logits are those of the last dense layer applied to the offsets of the second batch normalisation of the head: they depend neither on the points and features of the shape, nor on convolutions, samples or schedule. The gradients of the other variables of the head and of the features handed to the head are zero, and so are the gradients of all convolutions, blocks and normalisations before the head.",
  "all shapes, features, weights, convolutions, radii, samples, and all schedules of the kernels",
  "a test can only compare some shapes and weights; that the result is the same for all of them, and that all gradients vanish exactly in every schedule, cannot be tested",
  ["modelnet40.py:mymodel", "modelnet40_small.py:mymodel", "pylib/notebooks/ModelNet40.ipynb:mymodel"])

with open(os.path.join(os.path.dirname(os.path.abspath(__file__)), "..", "properties.jsonl"), "w") as f:
    for o in P:
        f.write(json.dumps(o) + "\n")
print(len(P))
