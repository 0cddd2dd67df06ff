import Verif.CudaGrid

/-!
# Machine integers: keys and access structure with 32 and 64 bit numbers

`Grid.lean` and `CudaGrid.lean` compute with unbounded integers.  Here the same
code is modelled with the integer types it uses: `int32` tensors in
`custom_ops_tf.py`, `int` and `long long` in `grid_utils.h`.  Arithmetic wraps
around (two's complement; in C++ signed overflow is undefined, wrap around is
what the hardware does).  Conversions from float to int32 are modelled on the
numbers that fit.
-/

set_option linter.unusedVariables false

namespace PC

/-- Conversion to a signed 32 bit integer. -/
def wrap32 (x : ℤ) : ℤ := x.bmod (2 ^ 32)

/-- Conversion to a signed 64 bit integer. -/
def wrap64 (x : ℤ) : ℤ := x.bmod (2 ^ 64)

/-! ### custom_ops_tf.py -/

/-- `tf.math.cumprod(num_cells, reverse=True)` followed by 1
(custom_ops_tf.py:47-48): entry `D - j`, computed from the right in 32 bits. -/
def tfMul32Loop {D : ℕ} (nc : Fin D → ℤ) : ℕ → ℤ
  | 0 => 1
  | j + 1 => wrap32 (tfMul32Loop nc j * ptAt nc (D - 1 - j))

/-- Entry `d` of `cell_multiplier`. -/
def tfMul32 {D : ℕ} (nc : Fin D → ℤ) (d : ℕ) : ℤ := tfMul32Loop nc (D - d)

/-- The key of a cell (custom_ops_tf.py:49-52): `int32` products and sums. The
final conversion to int64 changes nothing. -/
def tfKey32 {D : ℕ} (nc cell : Fin D → ℤ) (b : ℤ) : ℤ :=
  wrap32 (wrap32 (b * tfMul32 nc 0) +
    ((List.finRange D).map (fun d => wrap32 (cell d * tfMul32 nc (d.val + 1)))).foldl (fun a x => wrap32 (a + x)) 0)

/-- `cells_per_2D_cell` (custom_ops_tf.py:80-84): `reduce_prod` in 32 bits. -/
def tfTube32 {k : ℕ} (nc : Fin (k + 2) → ℤ) : ℤ :=
  (List.finRange k).foldl (fun a d => wrap32 (a * nc d.succ.succ)) 1

/-! ### grid_utils.h -/

/-- `compute_key_gpu_funct` (grid_utils.h:85-100) with 64 bit `key` and
`accumKey`. -/
def cuKey64Loop {D : ℕ} (nc cell : Fin D → ℤ) : ℕ → ℤ × ℤ → ℤ × ℤ
  | 0, s => s
  | i + 1, (key, accum) =>
    cuKey64Loop nc cell i (wrap64 (key + wrap64 (ptAt cell i * accum)), wrap64 (accum * ptAt nc i))

/-- The key. -/
def cuKey64 {D : ℕ} (cell nc : Fin D → ℤ) (b : ℤ) : ℤ :=
  let s := cuKey64Loop nc cell D (0, 1)
  wrap64 (s.1 + wrap64 (s.2 * b))

/-- The divisor of `compute_ds_index_from_key_gpu_funct` (grid_utils.h:138-141). -/
def cuDiv64Loop {D : ℕ} (nc : Fin D → ℤ) : ℕ → ℤ
  | 0 => 1
  | i + 1 => wrap64 (cuDiv64Loop nc i * ptAt nc (i + 2))

/-- `compute_ds_index_from_key_gpu_funct` (grid_utils.h:133-143): 64 bit division,
then conversion to `int`. -/
def cuDsFromKey64 {D : ℕ} (key : ℤ) (nc : Fin D → ℤ) : ℤ := wrap32 (wrap64 (key.tdiv (cuDiv64Loop nc (D - 2))))

/-- `compute_ds_index_from_cell_gpu_funct` (grid_utils.h:153-160) in `int`. -/
def cuDsFromCell32 {D : ℕ} (b : ℤ) (cell nc : Fin D → ℤ) : ℤ :=
  wrap32 (wrap32 (wrap32 (wrap32 (b * ptAt nc 0) * ptAt nc 1) + wrap32 (ptAt cell 0 * ptAt nc 1)) + ptAt cell 1)

section
variable {K : Type*} [Field K] [LinearOrder K] [FloorRing K] {D : ℕ}

/-- `compute_keys_tf` (custom_ops_tf.py:21-52) with 32 bit arithmetic. -/
def Grid.key32 (g : Grid D K) (i : Fin g.c.n) : ℤ :=
  tfKey32 (fun d => (g.numCells d : ℤ)) (fun d => (g.cell i d : ℤ)) (g.c.batch i)

/-- The key of `compute_keys_gpu_kernel` with 64 bit arithmetic. -/
def cuGridKey64 (g : Grid D K) (b : ℕ) (p : Fin D → K) : ℤ :=
  cuKey64 (cuCell p (cuSMin g b p) (fun d => (g.numCells d : ℤ)) (fun d => (g.cs d)⁻¹)) (fun d => (g.numCells d : ℤ)) b

end

/-! ### Rounding -/

/-- `ds_indices` (custom_ops_tf.py:91-92): the division of two int32 tensors is
carried out in float64, `rnd` is the rounding of that division. -/
def tfDsIndex {K : Type*} [Field K] [LinearOrder K] [FloorRing K] (rnd : K → K) (key tube : ℤ) : ℤ :=
  ⌊rnd ((key : K) / (tube : K))⌋

section
variable {K : Type*} [Field K] [LinearOrder K] [FloorRing K] {D : ℕ}

/-- `_aabb_min` (PointCloud.py:38-40) with a rounded subtraction. -/
def Grid.loR (rnd : K → K) (g : Grid D K) (b : ℕ) (d : Fin D) : Option K :=
  (segMin (fun i => g.c.pts i d) g.c.batch b).map (fun x => rnd (x - g.eps))

/-- `_aabb_max` (PointCloud.py:41-43) with a rounded addition. -/
def Grid.hiR (rnd : K → K) (g : Grid D K) (b : ℕ) (d : Fin D) : Option K :=
  (segMax (fun i => g.c.pts i d) g.c.batch b).map (fun x => rnd (x + g.eps))

/-- `batch_num_cells` (Grid.py:44-46) with rounded subtraction and division. -/
def Grid.batchNumCellsR (rnd : K → K) (g : Grid D K) (b : ℕ) (d : Fin D) : ℕ :=
  match g.loR rnd b d, g.hiR rnd b d with
  | some lo, some hi => ⌈rnd (rnd (hi - lo) / g.cs d)⌉.toNat
  | _, _ => 0

/-- `_num_cells` (Grid.py:47-48). -/
def Grid.numCellsR (rnd : K → K) (g : Grid D K) (d : Fin D) : ℕ :=
  max ((Finset.range g.c.B).sup (fun b => g.batchNumCellsR rnd b d)) 1

/-- The quotient of custom_ops_tf.py:41-42 before `floor`, rounded. -/
def Grid.quotR (rnd : K → K) (g : Grid D K) (i : Fin g.c.n) (d : Fin D) : K :=
  match g.loR rnd (g.c.batch i) d with
  | some lo => rnd (rnd (g.c.pts i d - lo) / g.cs d)
  | none => 0

/-- `cell_ind` (custom_ops_tf.py:41-46) with rounding. -/
def Grid.cellR (rnd : K → K) (g : Grid D K) (i : Fin g.c.n) (d : Fin D) : ℕ :=
  min (⌊g.quotR rnd i d⌋.toNat) (g.numCellsR rnd d)

end

/-- `compute_cell_gpu_funct` (grid_utils.h:63-74) after the conversion of the
rounded quotients to `int`, which are arbitrary here. -/
def cuClampCell {D : ℕ} (q nc : Fin D → ℤ) (d : Fin D) : ℤ := min (max (q d) 0) (nc d - 1)

end PC
