# Design: a Lean 4 model of `tensorflow_graphics_point_clouds`

The source under study is `/repo` (python + CUDA).  The model lives in
`lean/Verif`, the catalogue of claims in `properties.jsonl`, the status of each
claim in `MANIFEST.json`, the record of mutation experiments in
`seeded/LOG.jsonl`.

## 1. Modelling conventions

* **Tensors.**  A tensor whose leading size is fixed, `[N, ...]`, is a function
  `Fin N → ...`; a tensor whose length is only known at run time (neighbour
  lists, files) is a `List`.  Point coordinates are `Fin D → K`.
* **Numbers.**  `K` is any linearly ordered field with a floor function
  (`[Field K] [LinearOrder K] [IsStrictOrderedRing K] [FloorRing K]`), so
  theorems hold for ℚ and ℝ.  Where `exp`, `sqrt`, `sin` occur `K = ℝ`.
  Floating point rounding is *not* modelled except in the properties named at the
  end of section 3; one effect of it is modelled everywhere: the constant
  `1e-9` that `_AABB` subtracts/adds is absorbed by float32 rounding as soon
  as coordinates exceed about 0.03, so it is a parameter `eps ≥ 0` of the
  model.  `eps > 0` is the program as written over exact reals, `eps = 0` the
  program on most float32 inputs.  Claims that need `eps > 0` come with a
  counterexample for `eps = 0`.
* **Exceptions are values** (`Except Err _`).
* **Devices.**  TensorFlow documents that `gather_nd` with an out-of-range
  index raises on CPU and returns 0 on GPU, and that `unsorted_segment_*`
  with an out-of-range id raises on CPU and ignores the row on GPU.  Where the
  code can trigger this the model takes a `Device` argument.
* **Norms.**  `norm(v) < r` is modelled as `0 < r ∧ Σ v_d² < r²`;
  a lemma over ℝ shows this equals `sqrt (Σ v_d²) < r`.
* **Randomness, thread schedules, call histories.**  Random choices and thread
  interleavings are universally quantified: runs are inductive relations
  (or lists of events), and theorems speak about every run.  Call histories of
  stateful python objects are folds over lists of method calls.
* **Empty segments.**  `unsorted_segment_min/max` of an empty segment (dtype
  max/min) is `none`; what the code does with such a value is stated where it
  is consumed.
* Indices are unbounded naturals, except in `MachineInt`, which repeats the key
  computations of both implementations in 32 and 64 bit integers and with
  arbitrary monotone rounding, and states when they agree with the unbounded
  ones.
* **Shapes.**  `OpChecks` represents tensors by their shapes only.

## 2. Trusted base

* Lean 4.33.0 kernel and the axioms `propext`, `Classical.choice`,
  `Quot.sound` (checked by `Verif/Audit.lean`, which prints the axioms of each
  property theorem).  No further axioms, no `sorry`, no `native_decide`.
* The reading of `/repo` written down in the model's definitions; each cites
  file and lines and lists its simplifications.
* The documented behaviour of TensorFlow / TensorFlow Graphics primitives
  (`gather`, `argsort`, `unsorted_segment_*`, `segment_*`,
  `unique_with_counts`, `repeat`, `cumprod`, `flatten_batch_to_2d`,
  `unflatten_2d_to_batch`), and of the CUDA memory model as far as used:
  atomics are atomic, kernels launched one after another are ordered, and
  `__syncthreads` orders the phases of a block.
* `argsort` is modelled as a stable sort (TF implements it through `top_k`,
  which breaks ties by index).

## 3. Modules and the code they model

| module | code in `/repo` | what is modelled |
|---|---|---|
| `Tensor` | TensorFlow primitives used below | argsort, gather, segment operations, `repeat`, cumulative ends |
| `PointCloud`, `Features` | `pylib/pc/PointCloud.py`, `pylib/pc/utils.py`, `layers/utils.py:_format_output` | constructor validation, batch ids, sizes, padded view, memoised attributes as a state machine, boxes, diameter, feature layout |
| `Grid` | `pylib/pc/Grid.py`, `custom_ops_tf.compute_keys_tf/build_grid_ds_tf` | number of cells, keys, sorted order, 2D access structure |
| `Neighbors` | `pylib/pc/Neighborhood.py`, `custom_ops_tf.find_neighbors*` | grid search, brute force search, `Neighborhood`, transposition, per-device behaviour |
| `Sampling` | `pylib/pc/sampling.py`, `custom_ops_tf.sampling_tf` | Poisson loop with arbitrary choices, cell average, dispatch |
| `Hierarchy` | `pylib/pc/PointHierarchy.py` | level construction, queries over call histories |
| `Pdf` | `Neighborhood.compute_pdf/get_pdf`, `custom_ops_tf.compute_pdf_tf` | kernel density estimation, normalisation, memo |
| `Layers`, `Kernel` | `pylib/pc/layers/*.py` | MCConv, PointConv, KPConv, Conv1x1, pooling, rotations, kernel points |
| `Blocks` | `layers/network_blocks.py` | residual networks, feature and spatial bottlenecks |
| `Nets` | `modelnet40.py`, `modelnet40_small.py` | the networks: hierarchy, blocks, pooling, head at inference and training |
| `Train` | `modelnet40*.py`, `pylib/io` | data set listing, cache file over runs and kills, data generator over call histories, learning rate |
| `TrainLoop` | `modelnet40_small.py:353-449` | the training loop as a sequence of effects, ended after any number of them; metrics, checkpoints (a write may be cut), loading and resuming.  Network, optimiser step and data are parameters |
| `Tutorial` | `pylib/notebooks/ModelNet40.ipynb` | data generator over call histories, network, learning rates of the models trained one after the other |
| `GpuTut` | `pylib/notebooks/ModelNet40.ipynb:503-544` with the CUDA operations | network of the tutorial, all schedules; scope of `GpuNet` |
| `Boxes` | `pylib/pc/PointCloud.py:23-65, 235-247`, `pylib/pc/PointHierarchy.py:46, 92` | memoised boxes and diameters; the boxes' corners are functions of the cloud |
| `Rnd` | `custom_ops/tfg_custom_ops/shared/cc/kernels/rnd_utils.h:28-44`, seeds of `store_neighbors_kernels.cu.cc:70, 100-103, 217` | `BitVec 32`; `RndCert` holds generated matrices (`tools/gen_rnd.py`), every entry checked in `Props/Rnd` |
| `TwoTest` | `find_neighbors/cc/kernels/{count,store}_neighbors_kernels.cu.cc`, `ops/find_neighbors_ops.cpp:157-250` | the run of `CudaStore` with separate outcomes of the distance test in the two kernels |
| `AtomicMax` | `custom_ops/tfg_custom_ops/shared/cc/kernels/cuda_kernel_utils.h:54-65` | compare-and-swap loop; each access of the word is atomic, otherwise any interleaving; the combining function is a parameter |
| `Activation` | `custom_ops/tfg_custom_ops/shared/cc/kernels/nn_utils.h` | activation functions over the reals |
| `PairTotal` | `find_neighbors_ops.cpp`, `store_neighbors_kernels.cu.cc`, `scan_alg_kernels.cu.cc` | the search with 32 bit counters and positions |
| `Params` | `pylib/pc/layers/{MCConv,PointConv,KPConv,Conv1x1}.py` (constructors), `modelnet40_small.py` (checkpoints) | the variables of the layers as stored numbers, reading them back; that `save_weights` stores all variables is trusted |
| `TfGrad` | `pylib/pc/layers/KPConv.py` (as differentiated by TensorFlow) | gradients of convolution and regularization loss by the gradient functions of the operations used, exact on finite values, with infinities and NaN (`0/0`); the gradient functions are TensorFlow's and trusted to be as written there |
| `RoundPdf` | `compute_pdf_kernels.cu.cc`, `custom_ops_wrapper.py` (`compute_pdf`) | arithmetic with rounding and gradual underflow (single precision as an instance, no overflow), call of the density operation with rounded reciprocals |
| `MlpGrad` | `MCConv.py` (`_monte_carlo_conv`) | TensorFlow's backward pass through the kernel MLPs and the kernel inputs |
| `PoolGrad` | `Pooling.py` | TensorFlow's backward pass through the segment maximum, the segment mean and `tf.gather` |
| `PcGrad` | `PointConv.py` | TensorFlow's backward pass through the kernel network, the density network and the normalisation of the densities; the whole training step on the GPU |
| `HeadGrad` | `modelnet40.py`, `modelnet40_small.py` (loss, heads) | backward pass of the training loss and of the classification heads; trusted to be as written there: Keras' cross entropy on eager tensors (clipping at 1e-7), batch normalisation without fusion, leaky ReLU with slope 0.3, and TensorFlow's gradient functions |
| `NetGrad` | `modelnet40_small.py` (training step) | forward and backward pass through all levels of the small network on the GPU, with one schedule per kernel launch; deformable `KPConv` left out; trusted: every layer is called once, the tape visits the layers in reverse order, `trainable_variables` lists the variables of all layers |
| `NetGrad40` | `modelnet40.py` (training step) | the same for the network with residual blocks: maximum pooling on the skip connections, gradients of both branches added up, global average pooling |
| `TutGrad` | `pylib/notebooks/ModelNet40.ipynb` (training step) | loss and gradients of the network of the tutorial: convolutions with normalisation between them, global average pooling, head without dropout |
| `OptimTut` | `pylib/notebooks/ModelNet40.ipynb` (`apply_gradients`) | updates of the network of the tutorial, variable by variable as in `Optim`; the first update of Adam as that of RMSprop with `rho = 0` |
| `Optim` | `optimizer.apply_gradients` in `modelnet40.py`, `modelnet40_small.py`, `ModelNet40.ipynb` | updates of `RMSprop` (all variables of both networks) and of `Adam` (single numbers); the formulas are Keras' and trusted to be as written there; exact arithmetic |
| `NetParams` | `mymodel.__init__`, the layers used by `__call__`, `save_weights`, `load_weights` in `modelnet40_small.py` | lists of layers with positions; which variables Keras stores is trusted to be as written there; a missing entry is an error |
| `FindCuda` | `custom_ops/gpu/find_cuda_config.py` | versions, headers, search over directories, old variables; the file system is a parameter, regular expressions are read as string predicates.  Not Windows, macOS, `nvcc --version`, `ldconfig` |
| `IO` | `pylib/io/points.py` | text, batch and mesh loaders |
| `Sched`, `SchedMem`, `BlockMem` | CUDA execution | interleavings, grid-stride loops, barriers, shared memory, atomics |
| `CudaGrid`, `CudaSearch`, `CudaScan`, `CudaStore`, `CudaLimit` | `custom_ops/{compute_keys,build_grid_ds,find_neighbors,shared}` | key computation, parallel table construction, binary search ranges, counting, scan, storing, limit, `elem_wise_min`, random replacement |
| `CudaSampling` | `custom_ops/sampling` | Poisson sampling, cell averages, unique keys, storing |
| `CudaPool` | `store_pooled_pts_kernels.cu.cc`, `store_sampled_pts_kernels.cu.cc` | copying selected points, with single writes as steps |
| `CudaPdf` | `custom_ops/compute_pdf` | density kernel and its gradient |
| `CudaProj` | `custom_ops/basis_proj` | projection kernel and its gradients |
| `MachineInt` | `grid_utils.h`, `compute_keys_tf`, `build_grid_ds_tf` | keys and table indices in machine integers, rounded cells |
| `OpChecks` | `custom_ops/*/cc/ops/*.cpp`, `custom_ops_wrapper.py`, `tf_gpu_device.cpp:check_error` | shape checks, shapes passed by the Python classes, launches of zero blocks |
| `SearchInt` | `find_neighbors/cc/cuda/*`, `find_neighbors_ops.cpp`, `build_grid_ds_ops.cpp` | loop bounds, launch sizes and buffer sizes modulo 2^32 |
| `GpuLayer` | `custom_ops_wrapper.py`, `Neighborhood.py`, `layers/*.py` | the CUDA operations composed into `find_neighbors`, `get_pdf`, the three convolutions and local pooling; launch sizes and schedules chosen anew for every launch |
| `GpuGrad` | `custom_ops_wrapper.py` (gradient registrations), `layers/*.py` | the backward pass of the three convolutions: gradients of the projection and of the densities composed with the rules for the products, divisions and gathers around them |
| `GpuNet` | `sampling/*`, `PointHierarchy.py`, `layers/*.py`, `networks` in `examples/` | the CUDA operations composed into `sample`, point hierarchies and the two classification networks |
| `OpShapes` | `custom_ops/*/cc/ops/*.cpp` (`SetShapeFn`), `custom_ops_wrapper.py` (`RegisterGradient`) | static shapes of the custom operations, run-time shapes of their outputs, shapes in the gradient functions |
| `DivZero` | `MCConv.py`, `PointConv.py` | the layers with the division as a parameter |
| `Pipeline` | `_flatten_features`, `_format_output` around every layer | layers called one after the other, features in any layout |
| `Reuse` | `MCConv.py`, `PointConv.py` with `neighborhood=`, `Neighborhood.get_pdf` | several layers sharing a neighbourhood object |
| `Metrics` | `modelnet40.py:training` (validation loop) | running metrics, soft maximum, accuracy and mean loss over the batches of the generator; the loss of one row is a parameter |
| `Race` | all kernels modelled in `CudaKeys`, `CudaGrid`, `CudaScan`, `CudaStore`, `CudaLimit`, `CudaSampling`, `CudaPdf`, `CudaProj` | accesses of the actions of the threads (computed from what an action does), conflicts, launches without data race |
| `Async` | host code of `find_neighbors_ops.cpp`, `sampling_ops.cpp`, `scan_alg`, `count_unique_keys`, `count_sampled_pd`; `tf_gpu_device.cpp` (copies, page-locked buffers, events) | host programs, the stream of the operation, steps of host, stream and later owners of page-locked memory |
| `Barrier` | `__syncthreads` in `count_neighbors`, `scan_alg` (both kernels), `count_unique_keys`, `basis_proj`, `basis_proj_grads` | source lines of the barriers each thread executes |
| `FloatSearch` | `grid_utils.h` (cell of a point), `math_helper.h` (`length`, `dot`), the tests in `count_neighbors` and `store_neighbors` | the search with rounded operations (relative error of each operation a parameter; no overflow or underflow), and with coordinates that are infinite or not numbers; both kernels get the same outcome of a test |
| `Rounded` | the kernels of `basis_proj` and `compute_pdf` | numbers whose operations are rounded; the density estimation for any type with the operations; no fused operations |
| `*Lemmas` | | helper lemmas |
| `Props/*` | | the property theorems (separate from helper lemmas) |
| `Audit` | | `#print axioms` of each property theorem |

Not modelled: floating point rounding (except C64, C101, C102, C125, C127, C128, C155) and integer
overflow (except C100 and C106); weak memory effects (shared and global memory are
sequentially consistent per access; C121 proves that the kernels have no data race,
apart from the two it names, so that this is no restriction for them); `tf_gpu_device.cpp` beyond `check_error` and
the asynchronous copies of C122 (allocation of device memory, one stream for all operations; the room for blocks on the device is a parameter); TensorFlow's own automatic
differentiation of the python code beyond the modules `*Grad`;
printing; `Introduction.ipynb` beyond the library calls in it; the unused parts of `math_helper.h`.

## 4. Plan per property

| id | plan |
|---|---|
| C01 | model `flatten_batch_to_2d`/`scatter_nd`; round trip by pointwise computation |
| C02 | filter model; partition theorem |
| C03 | the code tests `id > batch_size` only: counterexamples (id = batch size, negative id) + partial theorem |
| C04 | `unique_with_counts` omits empty elements: counterexample + partial theorem (no empty element) |
| C05 | sum of counts |
| C06 | stability of argsort; counterexample with empty element + partial theorem |
| C07 | memoised state machine; counterexample history + partial (first call) |
| C08 | state machine invariant over all call sequences; row-major index bijection |
| C09 | decision logic outright |
| C10 | permutation inverse |
| C11 | inf/sup over segments |
| C12 | monotonicity of norms |
| C13 | mixed radix injectivity; `eps = 0` counterexample (clamp to `num_cells` instead of `num_cells-1`) |
| C14 | sorting permutation |
| C15 | contiguity of sorted keys + segment min/max; `eps = 0` counterexample |
| C16 | filter condition |
| C17 | floor arithmetic: |x-y| < r → cells differ by ≤ 1; range hull contains the 2D cell; CPU error theorem; `eps = 0` counterexample |
| C18 | counterexample (centre cell computed with the radius, table built with the cell size) + partial |
| C19 | prefix sums of flatMap |
| C20 | composition with the sorting permutation |
| C21 | filter of the product |
| C22 | counterexample (centre without neighbour) + partial |
| C23 | symmetric distance; model of both transpositions |
| C24–C27 | inductive runs; invariant "alive = not covered by chosen"; end-to-end with the grid search |
| C28 | dispatch model: the two helper functions pass swapped mode numbers — negation + what holds for `sample` |
| C29–C30 | unique/repeat/segment mean model; conservation |
| C31–C32 | induction over levels; counterexample for tiling (first instead of last value) |
| C33–C37 | real analysis; memo history counterexample; arity error |
| C38–C42 | finite sums; index arithmetic |
| C43–C46 | finite sup/sums |
| C47–C48 | explicit 3×3 matrices over ℝ; explicit coordinates; counterexamples (n=13 outside unit ball, n=15 duplicates) |
| C49–C51 | list/char model of the loaders; counterexamples for final line and default limit |
| C52 | counterexample cloud + statement for given neighbourhoods |
| C53–C61 | kernels as event lists over shared arrays, all schedules |
| C62–C64 | finite sums, `HasDerivAt` |
| C65 | broadcast model |
| C66–C80 | state machines over call histories, index permutations, counterexamples for the deviations of section 5 |
| C81–C86 | refinement between the TensorFlow and the CUDA model; end-to-end runs; bounds of the projection kernels |
| C87–C93 | networks as compositions of the layer models; data pipeline as a machine over runs, kills and calls |
| C94–C99 | two batches that share an element; Poisson samples of an element are cut out of one result and put into another, by their characterisation with separation and covering; coverage of cells and discs; networks end to end |
| C100–C103 | wrapped integers, monotone rounding, non-interference with memory outside the arrays |
| C104–C105 | decision logic of the checks on shapes; exact conditions |
| C106 | loop bounds modulo 2^32: the largest number of centres for which the search is complete, lost pairs beyond |
| C107 | both searches characterised by their sets of pairs; agreement for one radius, witnesses for anisotropic radii, small radii, limits |
| C108 | composition of the results on the single kernels; the kernel constant factors out; witness run with duplicates in four dimensions |
| C109 | the operations of the backward pass composed; chain rule over the exact formula of the layer; a point crossing the radius refutes the rest |
| C110 | the samples the TensorFlow version can give characterised as separated covering lists; every run of the CUDA kernels gives one of them; induction over the levels |
| C111 | C110 composed with the layers on the GPU (C104, C108); relations between grids kept by each layer |
| C112 | invariant over histories of read calls on a hierarchy |
| C113 | static and run-time shape functions evaluated side by side |
| C114 | the layers with the division as a parameter: results independent of its value at 0 |
| C115 | relation "same features in another layout" kept by every layer |
| C116 | neighbourhoods reduce to the point itself; the layer is then an explicit matrix |
| C117 | state of the neighbourhood object threaded through any number of layers |
| C118 | distances added up along the levels; convex combinations for cell averages |
| C119 | orthogonal maps keep distances, hence neighbour sets and densities; sums reindexed |
| C120 | counts of the running metrics over the batches as sums over the permutation |
| C121 | footprints of threads between barriers; counters never give a slot twice; points of one parity class are not neighbours |
| C122 | simulation: pending work of a well synchronised host program can be done at once; the host programs are well synchronised |
| C123 | number of turns of a grid-stride loop; the barriers of a thread as a function of it |
| C124 | the waits on any path through the host program, induction on the history of calls |
| C125 | error of a cell index and of a computed length as relations, every close pair lies in adjacent cells, then the proof of C58 |
| C126 | monotone clamping on finite values, everything else fails the test |
| C127 | the values written are the same nested folds in every schedule, in any type with the operations; two schedules with different sums in 24-bit arithmetic |
| C128 | approximation relation kept by every rounded addition, folded along the loops and along any order of the atomic additions |
| C129 | induction over the convolutions with the correspondence of batch elements (C94); global pooling gives one row per element, so no condition on the extent of the shapes as in C98 |
| C130 | invariant over histories: both arrays are the original ones composed with the same permutation; counterexample for sampling with repetition |
| C131 | closed form of the learning rates over the runs; counterexample: the second model starts with the decayed rate |
| C132 | invariant of the state after k whole epochs, then a case distinction on the effect within the epoch at which the process ends; counterexamples: directory of an earlier run, save interval that misses the last epoch |
| C133 | induction over the epochs if the step ignores the state of the optimiser; counterexample: staircase schedule after twenty epochs |
| C134 | near a position with no pair at the radius the neighbourhoods are constant, and the formulas of C41, C43 and C44 are continuous sums, maxima and quotients; counterexample: a point crosses the radius |
| C135 | the formulas of C41 and C44 over the repeated cloud, grouped by the recorded point; densities are multiplied by the number of repetitions, which MCConv divides out; Poisson results depend on the occupied places only; counterexample for KPConv |
| C136 | the formulas are sums over pairs within one radius, the densities over pairs of neighbours; triangle inequality; induction over the layers |
| C137 | prefix of lists of characters; decimal notation and its inverse by induction; counterexample 1 and 10.1 |
| C138 | induction over the candidates; headers without version as counterexamples |
| C139 | the regular expression as a decomposition of the string, unique since the parts contain no slash; counterexample with two parts |
| C140 | as C111: induction over the levels with features equal on the channels that are read, then C110 for the hierarchy |
| C141 | the box keeps the shape of its first use: invariant over call histories; hierarchies: all levels but the last have a box |
| C142 | the generator is a linear map over two elements; its powers as matrices checked by the kernel; period from the primes of 2^32 - 1; the hash is a bijection |
| C143 | a separated set is its own maximal separated subset; witness with two cells for the averages |
| C144 | cells of side radius / D hold one sample each; count of the cells |
| C145 | the run of C58 with two independent test outcomes; slots are prefix sums of the first |
| C146 | linearisation: the successful swaps in their order; a failed swap pays for another thread's successful one |
| C147 | derivatives with Mathlib; one-sided at the kink |
| C148 | the pairs in the user's numbering are those below the radius (C20) for each grid; triangle inequality without roots |
| C149 | the closed form of C41; differentiate along curves; a kink of the absolute value |
| C150 | the ranges of the offsets described by cells (as C56); cells give boxes; packing (C144) |
| C151 | the scan over any commutative ring, here `ZMod (2^32)`; below the limit every residue is the number itself |
| C152 | the results read the variables only inside their shapes; storing and reading is the identity there; rotations of the kernel points by C119 |
| C153 | lengths of the stored lists |
| C154 | chain rule for the loss along a curve of one parameter; absorption of NaN by sums and products |
| C155 | composition of relative errors, exponent error turned into a relative error of the exponential function, compensated summation restricted to sums of representable numbers |
| C156 | induction over the layers (chain rule), uniqueness of derivatives to combine with C109, one-sided derivatives at kinks |
| C157 | derivative of a maximum whose maximisers move together, double sums over pairs and segments, convexity of the maximum |
| C158 | chain rule row by row, sums collected by parameter, derivative of the largest density from C157, uniqueness of derivatives to combine with C109 |
| C159 | every layer as a lemma "moving inputs give moving outputs, and gradients times velocities agree" for all upstream gradients, chained; a batch with a confidently wrong prediction as a counterexample to the last sentence |
| C160 | each convolution as a node by C156, C158, C109 with points at rest; batch normalisation, activation, `Conv1x1` and `gather` as nodes by C159; induction over the levels for all upstream gradients, then the head |
| C161 | the skip connection as a node: the maximum over the pairs of one schedule equals that over the neighbours, so that forward and backward pass may use different schedules; blocks from nodes; induction over the levels; global pooling by C157, head by C159 |
| C162 | the network after the update as a curve in the learning rate; its velocity times the gradients is minus a sum of squares over positive numbers, so C160 and C161 give a negative derivative; the updated network runs because only sizes and radii decide that; bounds for single numbers by Cauchy-Schwarz over the history, sum of the learning rates as a geometric series |
| C163 | the lists of a constructed model in closed form; positions `2i`, `2i+1`, `-1`, `-2` in them; entry by entry reading of stored numbers (C152); features beyond the number of inputs of a layer are not used, induction over the levels |
| C164 | cell numbers, sorting keys and the access structure of the moved grid are those of the grid (bounding boxes move along); pairs join points of one element, so differences are kept; induction over levels and blocks; segments of equal keys hold one element, so its average moves along; the padded input through `flattenRows`, entry by entry; the other direction by moving back |
| C165 | one bijection between all points that maps element `b` to element `σ b`, glued from those of C94 for the elements; convolutions and pooling element by element (C94), normalisations by reindexing the sums over all rows; induction over blocks and levels; dropout as any pair of functions related by the order; the loss as a sum over the rows |
| C166 | by C160 and C161 the returned gradients are the derivatives of the loss for every variable; by C164 and C165 the loss of every network of these sizes is the same for both steps, so it is also the same along the straight line in the direction of the difference of the two gradients; the difference of the derivatives in this direction is the sum of the squares of the differences and must vanish |
| C167 | densities and coordinate differences of the pairs of a moved neighbourhood are the same (C164), induction over the blocks with the cached densities; the rows of a shape by the closed form of C52 and induction over the blocks with C94; refutation: two shapes of one point each, evaluated through the closed form of C52 |
| C168 | nodes of C159 and C160 (convolution, normalisation with activation function, linear layers) and of C161 (global average pooling) composed by induction over the convolutions; the head without dropout as its own composition |
| C169 | every point of one sample is mapped to a covering point of the other; the points mapped to one centre are separated and lie in a ball, so there are at most as many as disjoint small balls fit by volume (Lebesgue measure); hierarchies through C118; of `tests/utils.py` only one row of the uniform two-dimensional cloud is modelled |
| C170 | layers by their closed formulas; Poisson results are characterised by separation and covering, without the grid, and are carried over with the permutation of the sorted indices; cell keys are equal when the border of the boxes is scaled along; induction over the levels of hierarchies and networks |
| C171 | layers by C119; Poisson results are characterised by separation and covering, independent of the cells of the grid; induction over the levels of hierarchies and networks; the converse by turning back with the transposed matrix |
| C172 | the network convolves only sampled levels; Poisson results depend only on the occupied places (C135); constant features are constant on the first sampled level, in whatever order it comes |
| C173 | invariant over schedules with the list of points in the order of their atomic additions: every position below the counter holds the data of its point, or one thread is about to write it; the list and the selected points still to come are a permutation of all selected points |
| C174 | the hierarchies of two batches are joined by exchanging the levels of the shared shape (`C94_poisson_hierarchy`); every row is determined by the levels of its shape (`C97_from_levels`, `netTut_from_levels`); for the products, one row after the other is replaced (`product_of_mix`) |
| C175 | the normalisation of one row returns its offsets (`bn_one`), so all that follows the second normalisation of the head is fixed; the gradients through a normalisation of one row vanish (`bnGrad_zero`, `C159_single`), and zero gradients stay zero through dense layers, pooling, convolutions and levels (`convTrain_zero`, `blockTrain_zero`, `gpuTutTrain_zero`, `gpu40Train_zero`, `gpuSmallTrain_zero`) |

## 5. Deviations found

Claims of the catalogue that the code does not fulfil.  Each has a machine
checked counterexample (`*_false`, or a theorem describing the failing
behaviour for every input) and a `_partial` theorem for what remains true.

* **Point clouds**: an id equal to the batch size is accepted (C03); empty
  batch elements are missing from `get_sizes` and shift the padded view
  (C04, C06, C08, C70); the first `max_num_points` wins (C07); `sizes` are not
  compared with the points (C67); a batch shape set later is ignored by padded
  clouds (C66).
* **Grid**: when float32 absorbs the 1e-9 margin of the boxes a point on the
  upper face gets a key of another cell or batch element (C13, C15, C24, C29,
  C33, C81).
* **Neighbour search**: raises on CPU for the last row/column of cells (C17),
  misses neighbours for radii smaller than the cell size (C18), brute-force
  ranges are wrong after a centre without neighbour (C22), original ids of a
  self neighbourhood mix two index spaces (C23).
* **Sampling**: the helper functions swap the modes (C28).
* **Hierarchy**: missing cell sizes are filled with the first instead of the
  last value (C32), neighbourhoods do not connect levels (C68), transposed
  queries raise (C69).
* **Densities**: the first query is cached whatever the later arguments (C35);
  `density_estimation` calls a function with the wrong number of arguments
  (C37); the two implementations of mode `num_points` differ (C84, C85).
* **Layers**: KPConv's default influence distance (C40), number of kernel
  points (C75), duplicate kernel points (C48), unbounded regularisation loss
  (C76), pooling radii (C45), padded global pooling (C77), PointConv is not
  scale invariant (C74), residual blocks misalign rows (C52) and reject KPConv
  (C79).
* **Networks**: spatial bottlenecks misalign rows (C87); cell averages in five
  and more dimensions can lie outside every neighbourhood (C95, C96); the small
  network gives more than one row of logits for large shapes (C98); the first
  convolution gets features of unrelated points (C99); outputs jump when a
  point crosses the radius (C134); PointConv and KPConv multiply their output
  when points are recorded several times (C135); the configuration accepts
  version 10.1 for version 1, stops at a `cuda.h` without version, and takes
  `/cudnn` for `/opt/cudnn` (C137-C139).
* **Data pipeline**: the cache file is reused for other settings and after a
  kill during the write (C89); `on_epoch_end` is never called (C91); checkpoints of an
  earlier run stay loadable, the final variables may not be saved (C132); a resumed run
  starts the learning rate anew and overwrites the checkpoints (C133).
* **Loaders**: last line without newline (C49), no limit reads nothing (C50),
  point dimension other than 3 (C51).
* **CUDA**: the scan kernel races with itself for more than `512 + 64 W`
  elements (C57, C58, C83); the neighbour limit (C59, C82), which also writes outside of the output
  (C103); duplicates from four dimensions on (C56); 1D clouds, empty clouds,
  centres of further batch elements (C104); numbers of features and basis
  functions (C105); the two data races behind C57 and C59 (C121);
  page-locked memory given back before the stream has read it, from four dimensions on (C122); barriers inside loops
  that the threads of a block leave at different times (C123); events that are never destroyed (C124).
* **Two implementations**: the TensorFlow and the CUDA search differ for radii
  that differ between dimensions, for radii below the cell size and with a limit
  (C107); average pooling on the GPU is wrong from four dimensions on (C108).
* **Gradients**: the output of a layer jumps when a point crosses the radius, so that
  the returned gradients are none there (C109).
* **Numbers**: TensorFlow keys overflow 32 bits (C100), the search loses pairs of
  very large clouds (C106), float32 loses the border
  of the boxes (C102).

Findings the model records without a separate claim: `count_unique_keys`
returns 1 for an empty cloud; the projection ops launch zero blocks for zero
samples (CUDA reports an invalid configuration).
