import Verif.Layers
import Verif.CudaScan

/-!
# Argument checks of the custom operations

The C++ operations check the shapes of their inputs (`OP_REQUIRES`) before any
kernel runs.  This file models the checks of `tfg_custom_ops/*/cc/ops/*.cpp`,
the shapes the Python classes pass through `custom_ops_wrapper.py`, and what a
launch with zero blocks does.

A tensor is represented by its shape only (`List ℕ`).  Sizes fit into
`unsigned int` (no wrap when `dim_size` is converted).
-/

namespace PC

/-- Why an operation does not run.  `rejected`: an `OP_REQUIRES` (or a
TensorFlow broadcast) raises `InvalidArgumentError`; `aborted`: the process
ends, either by the `CHECK` inside `TensorShape::dim_size` or by `exit` in
`TFGPUDevice::check_error` (tf_gpu_device.cpp:89-100). -/
inductive OpFail
  | rejected
  | aborted
  deriving DecidableEq

/-- `shape().dim_size(i)`; TensorFlow `CHECK`s `i < dims()`. -/
def dimSize (s : List ℕ) (i : ℕ) : Except OpFail ℕ :=
  match s[i]? with
  | some n => .ok n
  | none => .error .aborted

/-- `OP_REQUIRES`. -/
def opRequires (b : Bool) : Except OpFail Unit := if b then .ok () else .error .rejected

/-- `MIN_DIMENSIONS`, `MAX_DIMENSIONS` (defines.hpp:25-26). -/
def opDimsOk (D : ℕ) : Bool := 2 ≤ D && D ≤ 6

/-- A sequence of kernel launches with the given numbers of blocks to execute
and room for `W > 0` blocks on the device; a launch with zero blocks is an
invalid configuration, after which `check_error` calls `exit`
(tf_gpu_device.cpp:89-100). -/
def runLaunches (W : ℕ) : List ℕ → Except OpFail Unit
  | [] => .ok ()
  | e :: es => if launchBlocks W e = 0 then .error .aborted else runLaunches W es

/-! ### the operations -/

/-- `ComputeKeysOp::Compute` (compute_keys_ops.cpp:65-116), block size `bs`
(compute_keys_kernels.cu.cc:93-110). -/
def computeKeysOp (W bs : ℕ) (pts ids saabb nc invCs : List ℕ) : Except OpFail Unit := do
  let numPts ← dimSize pts 0
  let D ← dimSize pts 1
  opRequires (opDimsOk D)
  opRequires ((← dimSize ids 0) == numPts)
  opRequires ((← dimSize saabb 1) == D)
  opRequires ((← dimSize nc 0) == D)
  opRequires ((← dimSize invCs 0) == D)
  runLaunches W [execBlocks numPts bs]

/-- `BuildGridDsOp` (build_grid_ds_ops.cpp:53-109). -/
def buildGridDsOp (W bs : ℕ) (keys ncGpu ncCpu : List ℕ) (batchSize : ℕ) : Except OpFail Unit := do
  opRequires (decide (0 < batchSize))
  let numPts ← dimSize keys 0
  let D ← dimSize ncGpu 0
  opRequires (opDimsOk D)
  opRequires ((← dimSize ncCpu 0) == D)
  runLaunches W [execBlocks numPts bs]

/-- The launches of the search that depend on the number of samples
(find_neighbors_ops.cpp:172-250): keys, ranges, counts, (minimum,) scan, store.
`16` is `NUM_THREADS_X_RANGE`, `9` `NUM_OFFSETS_X_COMPUTE_BLOCK`; every pass of
the offset loop launches the same sizes, one pass is listed. -/
def searchLaunches (bs numSamples : ℕ) (limited : Bool) : List ℕ :=
  [execBlocks numSamples bs, execBlocks (numSamples * 9) bs, execBlocks (numSamples * 9 * 16) bs] ++
  (if limited then [execBlocks numSamples bs] else []) ++
  [execBlocks numSamples (bs * 2), execBlocks (numSamples * 9 * 16) bs]

/-- `FindNeighborsOp::Compute` (find_neighbors_ops.cpp:86-257). -/
def findNeighborsOp (W bs : ℕ) (samples ids pts keys ds nc saabb invCs invR : List ℕ) (limited : Bool) :
    Except OpFail Unit := do
  let numSamples ← dimSize samples 0
  let numPts ← dimSize pts 0
  let D ← dimSize samples 1
  opRequires (opDimsOk D)
  opRequires ((← dimSize nc 0) == D)
  opRequires ((← dimSize pts 1) == D)
  opRequires ((← dimSize saabb 1) == D)
  opRequires ((← dimSize invCs 0) == D)
  opRequires ((← dimSize invR 0) == D)
  opRequires ((← dimSize ids 0) == numSamples)
  opRequires ((← dimSize keys 0) == numPts)
  opRequires (ds.length == 4 && (ds[3]? == some 2))
  runLaunches W (searchLaunches bs numSamples limited)

/-- `SamplingOp` (sampling_ops.cpp:68-195) up to the first launches
(`count_unique_keys`, `store_unique_keys`). -/
def samplingOp (W bs : ℕ) (mode : ℤ) (pts ids keys nc nb starts : List ℕ) : Except OpFail Unit := do
  opRequires (decide (0 ≤ mode) && decide (mode < 2))
  let numPts ← dimSize pts 0
  let D ← dimSize pts 1
  let _ ← dimSize nb 0
  opRequires (opDimsOk D)
  opRequires ((← dimSize ids 0) == numPts)
  opRequires ((← dimSize keys 0) == numPts)
  opRequires ((← dimSize nc 0) == D)
  opRequires (nb.length == 2 && nb[1]? == some 2)
  opRequires ((← dimSize starts 0) == numPts)
  runLaunches W [execBlocks numPts bs, execBlocks numPts bs]

/-- `ComputePDFOp` (compute_pdf_ops.cpp:88-160). -/
def computePdfOp (W bs : ℕ) (mode : ℤ) (pts nb starts invBw invR : List ℕ) : Except OpFail Unit := do
  opRequires (decide (0 ≤ mode) && decide (mode < 2))
  let numPts ← dimSize pts 0
  let numSamples ← dimSize starts 0
  let _ ← dimSize nb 0
  let D ← dimSize pts 1
  opRequires (numSamples == numPts)
  opRequires (opDimsOk D)
  opRequires ((← dimSize invBw 0) == D)
  opRequires ((← dimSize invR 0) == D)
  opRequires (nb.length == 2 && nb[1]? == some 2)
  runLaunches W [execBlocks numSamples bs]

/-- `ComputePDFPtGradsOp` (compute_pdf_ops.cpp:174-252). -/
def computePdfGradsOp (W bs : ℕ) (mode : ℤ) (pts nb starts invBw invR grads : List ℕ) :
    Except OpFail Unit := do
  opRequires (decide (0 ≤ mode) && decide (mode < 2))
  let numPts ← dimSize pts 0
  let numSamples ← dimSize starts 0
  let _ ← dimSize nb 0
  let D ← dimSize pts 1
  opRequires (numSamples == numPts)
  opRequires (opDimsOk D)
  opRequires ((← dimSize invBw 0) == D)
  opRequires ((← dimSize invR 0) == D)
  opRequires (nb.length == 2 && nb[1]? == some 2)
  opRequires ((← dimSize grads 0) == numSamples)
  runLaunches W [execBlocks numSamples bs]

/-- `BasisProjOp::Compute` (basis_proj_ops.cpp:77-130); blocks:
`numSamples * (cin / min(8, cin))` (basis_proj_kernels.cu.cc:158-173). -/
def basisProjOp (W : ℕ) (basis feats nb starts : List ℕ) : Except OpFail Unit := do
  let _ ← dimSize feats 0
  let numSamples ← dimSize starts 0
  let numNb ← dimSize nb 0
  let numBasis ← dimSize basis 1
  let cin ← dimSize feats 1
  opRequires (opBasisOk numBasis)
  opRequires (opFeaturesOk cin)
  opRequires ((← dimSize basis 0) == numNb)
  opRequires (nb.length == 2 && nb[1]? == some 2)
  runLaunches W [numSamples * (cin / min 8 cin)]

/-- `BasisProjGradsOp::Compute` (basis_proj_ops.cpp:156-225). -/
def basisProjGradsOp (W : ℕ) (basis feats nb starts grads : List ℕ) : Except OpFail Unit := do
  let _ ← dimSize feats 0
  let numSamples ← dimSize starts 0
  let numNb ← dimSize nb 0
  let numBasis ← dimSize basis 1
  let cin ← dimSize feats 1
  opRequires (opBasisOk numBasis)
  opRequires (opFeaturesOk cin)
  opRequires ((← dimSize basis 0) == numNb)
  opRequires (nb.length == 2 && nb[1]? == some 2)
  opRequires (grads.length == 3 && grads[0]? == some numSamples && grads[1]? == some cin &&
    grads[2]? == some numBasis)
  runLaunches W [numSamples * (cin / min 8 cin)]

/-! ### shapes on the Python side -/

/-- TensorFlow broadcasting of two reversed shapes. -/
def bcastRev : List ℕ → List ℕ → Option (List ℕ)
  | [], ys => some ys
  | xs, [] => some xs
  | x :: xs, y :: ys =>
    if x = y then (bcastRev xs ys).map (x :: ·)
    else if x = 1 then (bcastRev xs ys).map (y :: ·)
    else if y = 1 then (bcastRev xs ys).map (x :: ·)
    else none

/-- Shape of an element-wise binary operation; `InvalidArgumentError` if the
shapes do not broadcast. -/
def bcast (a b : List ℕ) : Except OpFail (List ℕ) :=
  match bcastRev a.reverse b.reverse with
  | some s => .ok s.reverse
  | none => .error .rejected

/-- Shape of `cast_to_num_dims` (utils.py:97-113) and of the cell sizes in
`Grid.__init__` (Grid.py:33-36): `tf.repeat` without an axis flattens. -/
def castShape (D : ℕ) (s : List ℕ) : List ℕ :=
  match s with
  | [] => [D]
  | 1 :: t => [t.prod * D]
  | s => s

/-- Shape of the radii in `Neighborhood.__init__` (Neighborhood.py:224-227). -/
def radiiShape (D : ℕ) (s : List ℕ) : List ℕ := if s.prod = 1 then [D] else [s.prod]

/-- Shapes a `Grid` holds: points `[n, D]`, batch size, cell sizes,
`aabb_min / cell_sizes` and `num_cells`. -/
structure GridShape where
  n : ℕ
  B : ℕ
  D : ℕ
  cs : List ℕ
  saabb : List ℕ
  nc : List ℕ
  deriving DecidableEq

/-- `Grid.__init__` (Grid.py:31-60) on the shapes: `n` points, `B` batch
elements, dimension `D`, the `cell_sizes` argument of shape `cs`;
`compute_keys` is `custom_ops_wrapper.compute_keys` (l. 36-42). -/
def gridShape (W bs n B D : ℕ) (cs : List ℕ) : Except OpFail GridShape := do
  let s := castShape D cs
  let q ← bcast [B, D] s
  computeKeysOp W bs [n, D] [n] q q.tail s
  return ⟨n, B, D, s, q, q.tail⟩

/-- `Neighborhood.__init__` with the given centres (Neighborhood.py:224-243) on
the shapes: `get_DS` (Grid.py:77-81), then `find_neighbors`
(custom_ops_wrapper.py:98-108); `c0`, `c1` are the first two entries of
`num_cells`, `m` the number of centres, `Dc` their dimension. -/
def searchShape (W bs c0 c1 : ℕ) (g : GridShape) (m Dc : ℕ) (radii : List ℕ) (limited : Bool) :
    Except OpFail Unit := do
  buildGridDsOp W bs [g.n] g.nc g.nc g.B
  findNeighborsOp W bs [m, Dc] [m] [g.n, g.D] [g.n] [g.B, c0, c1, 2] g.nc g.saabb g.cs radii limited

end PC
