import Verif.Sched
import Verif.Grid

/-!
# CUDA kernels: keys and 2D access structure

`custom_ops/tfg_custom_ops/shared/cc/kernels/grid_utils.h`,
`compute_keys/cc/kernels/compute_keys_kernels.cu.cc`,
`build_grid_ds/cc/kernels/build_grid_ds_kernels.cu.cc`.

Integers (`int`, `int64_m`) are unbounded here: 32 and 64 bit overflow is not
modelled in this file.  `/` and `%` are the truncating operations of C
(`Int.tdiv`, `Int.tmod`).  An `ipoint<D>` is `Fin D → ℤ`.
-/

set_option linter.unusedVariables false

namespace PC

/-- `p[i]` for an `ipoint<D>` (math_helper.h:74-85). -/
def ptAt {D : ℕ} (p : Fin D → ℤ) (i : ℕ) : ℤ := if h : i < D then p ⟨i, h⟩ else 0

/-- `compute_total_num_cells_gpu_funct` (grid_utils.h:41-51), the loop after
`i` iterations. -/
def cuTotalLoop {D : ℕ} (nc : Fin D → ℤ) : ℕ → ℤ
  | 0 => 1
  | i + 1 => cuTotalLoop nc i * ptAt nc i

/-- `compute_total_num_cells_gpu_funct` (grid_utils.h:41-51). -/
def cuTotal {D : ℕ} (nc : Fin D → ℤ) : ℤ := cuTotalLoop nc D

/-- The loop of `compute_key_gpu_funct` (grid_utils.h:90-98) for the remaining
`i-1, …, 0`; the state is `(key, accumKey)`. -/
def cuKeyLoop {D : ℕ} (nc cell : Fin D → ℤ) : ℕ → ℤ × ℤ → ℤ × ℤ
  | 0, s => s
  | i + 1, (key, accum) => cuKeyLoop nc cell i (key + ptAt cell i * accum, accum * ptAt nc i)

/-- `compute_key_gpu_funct` (grid_utils.h:85-100). -/
def cuKey {D : ℕ} (cell nc : Fin D → ℤ) (b : ℤ) : ℤ :=
  let s := cuKeyLoop nc cell D (0, 1)
  s.1 + s.2 * b

/-- The loop of `compute_cell_from_key_gpu_funct` (grid_utils.h:116-119) for
the remaining `i-1, …, 0`; the state is `(auxInt, result)`. -/
def cuDecodeLoop {D : ℕ} (nc : Fin D → ℤ) : ℕ → ℤ × (ℕ → ℤ) → ℤ × (ℕ → ℤ)
  | 0, s => s
  | i + 1, (aux, r) =>
    cuDecodeLoop nc i (aux.tdiv (ptAt nc i), Function.update r (i + 1) (aux.tmod (ptAt nc i)))

/-- `compute_cell_from_key_gpu_funct` (grid_utils.h:109-124): the batch id
(`result[0]`) and the cell (`result[1..D]`). -/
def cuDecode {D : ℕ} (key : ℤ) (nc : Fin D → ℤ) : ℤ × (Fin D → ℤ) :=
  let s := cuDecodeLoop nc D (key, fun _ => 0)
  (s.1, fun d => s.2 (d.val + 1))

/-- The divisor loop of `compute_ds_index_from_key_gpu_funct`
(grid_utils.h:138-141) after `i` iterations. -/
def cuDivLoop {D : ℕ} (nc : Fin D → ℤ) : ℕ → ℤ
  | 0 => 1
  | i + 1 => cuDivLoop nc i * ptAt nc (i + 2)

/-- `compute_ds_index_from_key_gpu_funct` (grid_utils.h:133-143). -/
def cuDsFromKey {D : ℕ} (key : ℤ) (nc : Fin D → ℤ) : ℤ := key.tdiv (cuDivLoop nc (D - 2))

/-- `compute_ds_index_from_cell_gpu_funct` (grid_utils.h:153-160). -/
def cuDsFromCell {D : ℕ} (b : ℤ) (cell nc : Fin D → ℤ) : ℤ :=
  b * ptAt nc 0 * ptAt nc 1 + ptAt cell 0 * ptAt nc 1 + ptAt cell 1

section
variable {K : Type*} [Field K] [LinearOrder K] [FloorRing K] {D : ℕ}

/-- `compute_cell_gpu_funct` (grid_utils.h:63-74): `smin` is the lower corner of
the box divided by the cell size, `inv` the reciprocal cell size. -/
def cuCell (p smin : Fin D → K) (nc : Fin D → ℤ) (inv : Fin D → K) (d : Fin D) : ℤ :=
  min (max ⌊p d * inv d - smin d⌋ 0) (nc d - 1)

/-- The value written by one iteration of `compute_keys_gpu_kernel`
(compute_keys_kernels.cu.cc:52-70). -/
def cuPointKey (p smin : Fin D → K) (nc : Fin D → ℤ) (inv : Fin D → K) (b : ℤ) : ℤ :=
  cuKey (cuCell p smin nc inv) nc b

/-- The lower corners handed to the kernels: `aabb_min / cell_size`
(custom_ops_wrapper.py:40 and 104).  A batch element without points has the
largest float as lower corner, which makes the clamped cell 0: here the corner
is then chosen such that the cell is 0 for the given point. -/
def cuSMin (g : Grid D K) (b : ℕ) (p : Fin D → K) (d : Fin D) : K :=
  match aabbMin g.eps g.c b d with
  | some lo => lo / g.cs d
  | none => p d * (g.cs d)⁻¹

/-- The key the CUDA code computes for a point `p` of batch element `b` with the
grid `g` (custom_ops_wrapper.py:36-43 and compute_keys_kernels.cu.cc:41-71;
find_neighbors_ops.cpp:173-176 for the centres). -/
def cuGridKey (g : Grid D K) (b : ℕ) (p : Fin D → K) : ℤ :=
  cuPointKey p (cuSMin g b p) (fun d => (g.numCells d : ℤ)) (fun d => (g.cs d)⁻¹) b

/-- The writes of iteration `cur` of `compute_keys_gpu_kernel`. -/
def cuKeysBody (g : Grid D K) (cur : ℕ) : List (ℕ × ℤ) :=
  if h : cur < g.c.n then [(cur, cuGridKey g (g.c.batch ⟨cur, h⟩) (g.c.pts ⟨cur, h⟩))] else []

/-- The threads of a launch of `compute_keys_gpu_kernel` with `T` threads. -/
def cuKeysThreads (g : Grid D K) (T : ℕ) : List (List (ℕ × ℤ)) :=
  strideThreads T g.c.n (cuKeysBody g)

end

/-! ### `build_grid_gpu_kernel` -/

/-- The two components of an `int2` entry. -/
inductive Comp | x | y
  deriving DecidableEq

/-- The writes of iteration `cur` of `build_grid_gpu_kernel`
(build_grid_ds_kernels.cu.cc:46-70): addresses are entry number and
component. `N` is `pNumPts`. -/
def buildDsBody {D : ℕ} (nc : Fin D → ℤ) (keys : ℕ → ℤ) (N cur : ℕ) : List ((ℤ × Comp) × ℕ) :=
  let ds := cuDsFromKey (keys cur) nc
  (if 1 ≤ cur ∧ ds ≠ cuDsFromKey (keys (cur - 1)) nc then [((ds, .x), cur)] else []) ++
  (if cur + 1 = N then [((ds, .y), N)]
   else if ds ≠ cuDsFromKey (keys (cur + 1)) nc then [((ds, .y), cur + 1)] else [])

/-- The threads of a launch of `build_grid_gpu_kernel` with `T` threads. -/
def buildDsThreads {D : ℕ} (nc : Fin D → ℤ) (keys : ℕ → ℤ) (N T : ℕ) :
    List (List ((ℤ × Comp) × ℕ)) :=
  strideThreads T N (buildDsBody nc keys N)

/-- The table after the launch: the output is set to zero first
(build_grid_ds_kernels.cu.cc:104), then the trace of writes happens. -/
def buildDsResult (tr : List ((ℤ × Comp) × ℕ)) (s : ℤ) : ℕ × ℕ :=
  (runWrites (fun _ => 0) tr (s, .x), runWrites (fun _ => 0) tr (s, .y))

end PC
